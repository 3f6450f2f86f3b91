import Verif.Smr.RMsg

/-!
# The face-centred field in the message, and its injection
-/

namespace Athena.Smr

variable {R : Type*} [Field R] {nf : Nat}

/-! ## Specification -/

/-- The coarse faces normal to `m` of the zones of the overlap. -/
def faces (p : Parent R nf) (m : Fin 3) : List Z3 :=
  rng p.box.ks (if m = 2 then p.box.ke + 1 else p.box.ke) ×ˢ
    (rng p.box.js (if m = 1 then p.box.je + 1 else p.box.je) ×ˢ
      rng p.box.is (if m = 0 then p.box.ie + 1 else p.box.ie))

/-- The fine faces in the coarse face `z` normal to `m`. -/
def coveredB (c : Child R nf) (p : Parent R nf) (m : Fin 3) (z : Z3) : List Z3 :=
  (offs (m ≠ 2 ∧ 3 ≤ p.nDim) ×ˢ (offs (m ≠ 1 ∧ 2 ≤ p.nDim) ×ˢ offs (m ≠ 0))).map fun o =>
    (c.box.ks + 2*(z.1 - p.box.ks) + o.1, c.box.js + 2*(z.2.1 - p.box.js) + o.2.1,
      c.box.is + 2*(z.2.2 - p.box.is) + o.2.2)

/-- Mean value of the fine field over a coarse face. -/
def fldW (c : Child R nf) (p : Parent R nf) (m : Fin 3) (z : Z3) : R := avg (c.g.B m) (coveredB c p m z)

/-- The part of the message with the face fields. -/
def fldWs (c : Child R nf) (p : Parent R nf) : List R :=
  if p.zones = [] ∨ p.nDim = 1 then [] else
    (faces p 0).map (fldW c p 0) ++ (faces p 1).map (fldW c p 1) ++
      (if p.nDim = 3 then (faces p 2).map (fldW c p 2) else [])

/-- The overlap is more than one coarse zone wide in each refined direction (or has no zones at all). -/
def Thick (p : Parent R nf) : Prop :=
  p.zones = [] ∨ p.nDim = 1 ∨ (p.box.is < p.box.ie ∧ p.box.js < p.box.je ∧ (p.nDim = 3 → p.box.ks < p.box.ke))

theorem product_eq_nil {α β : Type*} {l : List α} {m : List β} : l ×ˢ m = [] ↔ l = [] ∨ m = [] := by
  cases l with
  | nil => simp
  | cons a l =>
    cases m with
    | nil => simp [List.product_nil]
    | cons b m => simp [List.product_cons]

theorem rng_eq_nil {a b : ℤ} : rng a b = [] ↔ b < a := by
  constructor
  · intro h
    by_contra hc
    have : a ∈ rng a b := mem_rng.2 ⟨le_refl _, by omega⟩
    rw [h] at this; simp at this
  · exact rng_empty

theorem zones_nil (p : Parent R nf) : p.zones = [] ↔
    p.box.ke < p.box.ks ∨ p.box.je < p.box.js ∨ p.box.ie < p.box.is := by
  rw [Parent.zones, product_eq_nil, product_eq_nil, rng_eq_nil, rng_eq_nil, rng_eq_nil]

theorem map_prod_congr {α β γ δ : Type*} (l : List α) (f : α → γ) (g : γ → δ) (k : α → δ)
    (h : ∀ x ∈ l, g (f x) = k x) : (l.map f).map g = l.map k := by
  rw [List.map_map]; exact List.map_congr_left h

theorem rng2_nil {a b c d : ℤ} (h : Covers a b c d) (hd : d < c) : rng2 a b = [] := by
  rw [rng2_eq h, rng_empty hd]; rfl

theorem sendFld_eq {c : Child R nf} {p : Parent R nf} (h : Match c p) :
    (if c.nDim = 3 then c.sendFld3 else if c.nDim = 2 then c.sendFld2 else []) = fldWs c p := by
  have d1 := h.dim1
  have d3 := h.dim3
  have e1 := h.x1
  rw [h.dim]
  unfold fldWs
  rcases (by omega : p.nDim = 1 ∨ p.nDim = 2 ∨ p.nDim = 3) with hD | hD | hD
  · simp [hD]
  · rw [if_neg (by omega), if_pos hD]
    have e2 := h.x2 (by omega)
    have e3 := h.x3' (by omega)
    by_cases hz : p.zones = []
    · rw [if_pos (Or.inl hz)]
      rw [zones_nil] at hz
      unfold Child.sendFld2
      dsimp only
      have r1 : p.box.ie < p.box.is → ¬ c.box.is < c.box.ie := by omega
      have r2 : p.box.je < p.box.js → ¬ c.box.js < c.box.je := by omega
      rcases hz with hz | hz | hz
      · omega
      · have q1 : rng2 c.box.js c.box.je = [] := rng2_nil h.c2 hz
        rw [if_neg (r2 hz), q1]; simp
      · have q1 : rng2 c.box.is c.box.ie = [] := rng2_nil h.c1 hz
        rw [if_neg (r1 hz), q1]; simp [List.product_nil]
    · rw [if_neg (show ¬ (p.zones = [] ∨ p.nDim = 1) from fun e => e.elim hz (by omega))]
      rw [zones_nil, not_or, not_or] at hz
      unfold Child.sendFld2
      dsimp only
      rw [if_pos (by omega), if_pos (by omega), rng2_eq h.c1, rng2_eq h.c2, rng2_eq_face e1.1 e1.2, rng2_eq_face e2.1 e2.2,
        map_product, map_product, if_neg (by omega)]
      simp only [faces, if_true, show (0 : Fin 3) ≠ 1 by decide, show (0 : Fin 3) ≠ 2 by decide, show (1 : Fin 3) ≠ 0 by decide,
        show (1 : Fin 3) ≠ 2 by decide, if_false]
      rw [e3.2.2, rng_single, List.product_cons, List.nil_product, List.append_nil, List.product_cons, List.nil_product,
        List.append_nil, List.append_nil]
      simp only [List.map_map]
      congr 1
      · apply List.map_congr_left
        intro x _
        simp only [Function.comp, fldW, coveredB, hD, offs, avg, Prod.map, fine, e3]
        simp [List.product_cons]
        ring
      · apply List.map_congr_left
        intro x _
        simp only [Function.comp, fldW, coveredB, hD, offs, avg, Prod.map, fine, e3]
        simp [List.product_cons]
        ring
  · rw [if_pos hD]
    have e2 := h.x2 (by omega)
    have e3 := h.x3 (by omega)
    by_cases hz : p.zones = []
    · rw [if_pos (Or.inl hz)]
      rw [zones_nil] at hz
      unfold Child.sendFld3
      dsimp only
      have r1 : p.box.ie < p.box.is → ¬ c.box.is < c.box.ie := by omega
      have r2 : p.box.je < p.box.js → ¬ c.box.js < c.box.je := by omega
      have r3 : p.box.ke < p.box.ks → ¬ c.box.ks < c.box.ke := by omega
      rcases hz with hz | hz | hz
      · have q1 : rng2 c.box.ks c.box.ke = [] := rng2_nil h.c3 hz
        rw [if_neg (r3 hz), q1]; simp
      · have q1 : rng2 c.box.js c.box.je = [] := rng2_nil h.c2 hz
        rw [if_neg (r2 hz), q1]; simp [List.product_nil]
      · have q1 : rng2 c.box.is c.box.ie = [] := rng2_nil h.c1 hz
        rw [if_neg (r1 hz), q1]; simp [List.product_nil]
    · rw [if_neg (show ¬ (p.zones = [] ∨ p.nDim = 1) from fun e => e.elim hz (by omega))]
      rw [zones_nil, not_or, not_or] at hz
      unfold Child.sendFld3
      dsimp only
      rw [if_pos (by omega), if_pos (by omega), if_pos (by omega), rng2_eq h.c1, rng2_eq h.c2, rng2_eq h.c3, rng2_eq_face e1.1 e1.2,
        rng2_eq_face e2.1 e2.2, rng2_eq_face e3.1 e3.2, if_pos hD]
      simp only [map_product, List.map_map]
      simp only [faces, if_true, show (0 : Fin 3) ≠ 1 by decide, show (0 : Fin 3) ≠ 2 by decide, show (1 : Fin 3) ≠ 0 by decide,
        show (1 : Fin 3) ≠ 2 by decide, show (2 : Fin 3) ≠ 0 by decide, show (2 : Fin 3) ≠ 1 by decide, if_false]
      congr 1
      · congr 1
        · apply List.map_congr_left
          intro x _
          simp only [Function.comp, fldW, coveredB, hD, offs, avg, Prod.map, fine, e3]
          simp [List.product_cons]
          ring
        · apply List.map_congr_left
          intro x _
          simp only [Function.comp, fldW, coveredB, hD, offs, avg, Prod.map, fine, e3]
          simp [List.product_cons]
          ring
      · apply List.map_congr_left
        intro x _
        simp only [Function.comp, fldW, coveredB, hD, offs, avg, Prod.map, fine, e3]
        simp [List.product_cons]
        ring

theorem length_faces (p : Parent R nf) (m : Fin 3) : ((faces p m).length : ℤ) =
    ((if m = 2 then p.box.ke + 1 else p.box.ke) + 1 - p.box.ks).toNat *
    (((if m = 1 then p.box.je + 1 else p.box.je) + 1 - p.box.js).toNat *
    ((if m = 0 then p.box.ie + 1 else p.box.ie) + 1 - p.box.is).toNat) := by
  unfold faces
  rw [length_product', length_product', length_rng, length_rng, length_rng]
  push_cast; ring

/-- `nFld` is the number of words. -/
theorem nFld_eq {c : Child R nf} {p : Parent R nf} (h : Match c p) : c.nFld = ((fldWs c p).length : ℤ) := by
  have d1 := h.dim1
  have d3 := h.dim3
  have e1 := h.x1
  unfold Child.nFld fldWs
  rw [h.dim]
  have q2 : ∀ a : ℤ, 2*a/2 = a := fun a => by omega
  dsimp only
  rw [e1.1, q2]
  rcases (by omega : p.nDim = 1 ∨ p.nDim = 2 ∨ p.nDim = 3) with hD | hD | hD
  · simp [hD]
  · rw [if_neg (by omega), if_pos hD]
    have e2 := h.x2 (by omega)
    have e3 := h.x3' (by omega)
    rw [e2.1, q2]
    by_cases hz : p.zones = []
    · rw [if_pos (Or.inl hz)]
      rw [zones_nil] at hz
      rcases hz with hz | hz | hz
      · omega
      · rw [if_neg (by omega : ¬ c.box.js < c.box.je), show p.box.je - p.box.js + 1 = 0 by omega]
        simp
      · rw [if_neg (by omega : ¬ c.box.is < c.box.ie), show p.box.ie - p.box.is + 1 = 0 by omega]
        simp
    · rw [if_neg (show ¬ (p.zones = [] ∨ p.nDim = 1) from fun e => e.elim hz (by omega))]
      rw [zones_nil, not_or, not_or] at hz
      rw [if_pos (by omega : c.box.is < c.box.ie), if_pos (by omega : c.box.js < c.box.je), if_neg (by omega : ¬ p.nDim = 3), List.append_nil, List.length_append, List.length_map,
        List.length_map, Nat.cast_add, length_faces, length_faces]
      simp only [if_true, show (0 : Fin 3) ≠ 1 by decide, show (0 : Fin 3) ≠ 2 by decide, show (1 : Fin 3) ≠ 0 by decide,
        show (1 : Fin 3) ≠ 2 by decide, if_false]
      rw [show ((p.box.ke + 1 - p.box.ks).toNat : ℤ) = 1 by omega,
        show ((p.box.je + 1 - p.box.js).toNat : ℤ) = p.box.je - p.box.js + 1 by omega,
        show ((p.box.ie + 1 - p.box.is).toNat : ℤ) = p.box.ie - p.box.is + 1 by omega,
        show ((p.box.je + 1 + 1 - p.box.js).toNat : ℤ) = p.box.je - p.box.js + 1 + 1 by omega,
        show ((p.box.ie + 1 + 1 - p.box.is).toNat : ℤ) = p.box.ie - p.box.is + 1 + 1 by omega]
      ring
  · rw [if_pos hD]
    have e2 := h.x2 (by omega)
    have e3 := h.x3 (by omega)
    rw [e2.1, e3.1, q2, q2]
    by_cases hz : p.zones = []
    · rw [if_pos (Or.inl hz)]
      rw [zones_nil] at hz
      rcases hz with hz | hz | hz
      · rw [if_neg (by omega : ¬ c.box.ks < c.box.ke), show p.box.ke - p.box.ks + 1 = 0 by omega]
        simp
      · rw [if_neg (by omega : ¬ c.box.js < c.box.je), show p.box.je - p.box.js + 1 = 0 by omega]
        simp
      · rw [if_neg (by omega : ¬ c.box.is < c.box.ie), show p.box.ie - p.box.is + 1 = 0 by omega]
        simp
    · rw [if_neg (show ¬ (p.zones = [] ∨ p.nDim = 1) from fun e => e.elim hz (by omega))]
      rw [zones_nil, not_or, not_or] at hz
      rw [if_pos (by omega), if_pos (by omega), if_pos (by omega), if_pos hD, List.length_append, List.length_append, List.length_map,
        List.length_map, List.length_map, Nat.cast_add, Nat.cast_add, length_faces, length_faces, length_faces]
      simp only [if_true, show (0 : Fin 3) ≠ 1 by decide, show (0 : Fin 3) ≠ 2 by decide, show (1 : Fin 3) ≠ 0 by decide,
        show (1 : Fin 3) ≠ 2 by decide, show (2 : Fin 3) ≠ 0 by decide, show (2 : Fin 3) ≠ 1 by decide, if_false]
      rw [show ((p.box.ke + 1 - p.box.ks).toNat : ℤ) = p.box.ke - p.box.ks + 1 by omega,
        show ((p.box.je + 1 - p.box.js).toNat : ℤ) = p.box.je - p.box.js + 1 by omega,
        show ((p.box.ie + 1 - p.box.is).toNat : ℤ) = p.box.ie - p.box.is + 1 by omega,
        show ((p.box.je + 1 + 1 - p.box.js).toNat : ℤ) = p.box.je - p.box.js + 1 + 1 by omega,
        show ((p.box.ke + 1 + 1 - p.box.ks).toNat : ℤ) = p.box.ke - p.box.ks + 1 + 1 by omega,
        show ((p.box.ie + 1 + 1 - p.box.is).toNat : ℤ) = p.box.ie - p.box.is + 1 + 1 by omega]
      ring

/-! ## The receiver -/

/-- Faces on a boundary where the EMF correction will be made are not overwritten. -/
def skip (p : Parent R nf) (m : Fin 3) (z : Z3) : Bool :=
  if m = 0 then (z.2.2 = p.box.is ∧ (p.flx 0).isSome) ∨ (z.2.2 = p.box.ie + 1 ∧ (p.flx 1).isSome)
  else if m = 1 then (z.2.1 = p.box.js ∧ (p.flx 2).isSome) ∨ (z.2.1 = p.box.je + 1 ∧ (p.flx 3).isSome)
  else (z.1 = p.box.ks ∧ (p.flx 4).isSome) ∨ (z.1 = p.box.ke + 1 ∧ (p.flx 5).isSome)

/-- Read a word and store it in face `z` unless it is skipped. -/
def actB (p : Parent R nf) (m : Fin 3) (z : Z3) : R → PState R nf → PState R nf := fun w s =>
  if skip p m z then s else s.setB m z w

theorem flatMap_first {α : Type*} (a b : ℤ) (x : List α) (g : ℤ → List α) (h : a ≤ b) :
    (rng a b).flatMap (fun i => (if i = a then x else []) ++ g i) = x ++ (rng a b).flatMap g := by
  rw [rng_cons h, List.flatMap_cons, List.flatMap_cons, if_pos rfl, List.append_assoc]
  congr 2
  apply List.flatMap_congr
  intro i hi
  rw [mem_rng] at hi
  rw [if_neg (by omega), List.nil_append]

theorem flatMap_last {α : Type*} (a b : ℤ) (x : List α) (g : ℤ → List α) (h : a ≤ b) :
    (rng a b).flatMap (fun i => g i ++ (if i = b then x else [])) = (rng a b).flatMap g ++ x := by
  obtain ⟨b', rfl⟩ : ∃ b', b = b' + 1 := ⟨b - 1, by omega⟩
  rw [rng_snoc (by omega), List.flatMap_append, List.flatMap_append, List.append_assoc]
  congr 1
  · apply List.flatMap_congr
    intro i hi
    rw [mem_rng] at hi
    rw [if_neg (by omega), List.append_nil]
  · simp

theorem flatMap_map_product {α β γ : Type*} (l : List α) (m : List β) (f : α → β → γ) :
    (l.flatMap fun x => m.map (f x)) = (l ×ˢ m).map fun x => f x.1 x.2 := by
  induction l with
  | nil => rfl
  | cons a l ih => rw [List.flatMap_cons, List.product_cons, List.map_append, ih, List.map_map]; rfl

theorem product_assoc_map {α β γ δ : Type*} (l : List α) (m : List β) (n : List γ) (f : α → β → γ → δ) :
    ((l ×ˢ m) ×ˢ n).map (fun x => f x.1.1 x.1.2 x.2) = (l ×ˢ (m ×ˢ n)).map fun x => f x.1 x.2.1 x.2.2 := by
  rw [← flatMap_map_product (l ×ˢ m) n (fun x => f x.1 x.2), ← flatMap_map_product l (m ×ˢ n) (fun x y => f x y.1 y.2)]
  induction l with
  | nil => rfl
  | cons a l ih =>
    rw [List.product_cons, List.flatMap_append, ih, List.flatMap_cons]
    congr 1
    rw [← flatMap_map_product m n (fun x y => f a x y), List.flatMap_map]

theorem rowB1_eq (p : Parent R nf) (k j : ℤ) (h : p.box.is < p.box.ie) :
    p.rowB1 k j = (rng p.box.is (p.box.ie + 1)).map fun i => actB p 0 (k, j, i) := by
  unfold Parent.rowB1
  simp only [List.append_assoc]
  rw [flatMap_first _ _ _ _ (by omega), flatMap_last _ _ _ _ (by omega)]
  rw [rng_cons (by omega : p.box.is ≤ p.box.ie + 1), rng_snoc (by omega : p.box.is + 1 ≤ p.box.ie + 1), List.map_cons,
    List.map_append, ← List.map_eq_flatMap]
  simp only [List.singleton_append, List.map_cons, List.map_nil]
  congr 1
  · funext w s
    simp only [Parent.faceOrSkip, actB, skip, if_true]
    have : (p.box.is = p.box.ie + 1) = False := by simp; omega
    simp only [this, false_and, or_false, true_and]
    cases p.flx 0 <;> simp
  · congr 1
    · apply List.map_congr_left
      intro i hi
      rw [mem_rng] at hi
      funext w s
      simp only [Parent.face, actB, skip, if_true]
      rw [if_neg]
      simp; omega
    · congr 1
      funext w s
      simp only [Parent.faceOrSkip, actB, skip, if_true]
      have : (p.box.ie + 1 = p.box.is) = False := by simp; omega
      simp only [this, false_and, false_or, true_and]
      cases p.flx 1 <;> simp

theorem actB1_lo (p : Parent R nf) (k i : ℤ) (h : p.box.js < p.box.je) :
    p.faceOrSkip 2 1 (k, p.box.js, i) = actB p 1 (k, p.box.js, i) := by
  funext w s
  simp only [Parent.faceOrSkip, actB, skip, show (1 : Fin 3) ≠ 0 by decide, if_true, if_false]
  have : (p.box.js = p.box.je + 1) = False := by simp; omega
  simp only [this, false_and, or_false, true_and]
  cases p.flx 2 <;> simp

theorem actB1_hi (p : Parent R nf) (k i : ℤ) (h : p.box.js < p.box.je) :
    p.faceOrSkip 3 1 (k, p.box.je + 1, i) = actB p 1 (k, p.box.je + 1, i) := by
  funext w s
  simp only [Parent.faceOrSkip, actB, skip, show (1 : Fin 3) ≠ 0 by decide, if_true, if_false]
  have : (p.box.je + 1 = p.box.js) = False := by simp; omega
  simp only [this, false_and, false_or, true_and]
  cases p.flx 3 <;> simp

theorem actB2_lo (p : Parent R nf) (j i : ℤ) (h : p.box.ks < p.box.ke) :
    p.faceOrSkip 4 2 (p.box.ks, j, i) = actB p 2 (p.box.ks, j, i) := by
  funext w s
  simp only [Parent.faceOrSkip, actB, skip, show (2 : Fin 3) ≠ 0 by decide, show (2 : Fin 3) ≠ 1 by decide, if_false]
  have : (p.box.ks = p.box.ke + 1) = False := by simp; omega
  simp only [this, false_and, or_false, true_and]
  cases p.flx 4 <;> simp

theorem actB2_hi (p : Parent R nf) (j i : ℤ) (h : p.box.ks < p.box.ke) :
    p.faceOrSkip 5 2 (p.box.ke + 1, j, i) = actB p 2 (p.box.ke + 1, j, i) := by
  funext w s
  simp only [Parent.faceOrSkip, actB, skip, show (2 : Fin 3) ≠ 0 by decide, show (2 : Fin 3) ≠ 1 by decide, if_false]
  have : (p.box.ke + 1 = p.box.ks) = False := by simp; omega
  simp only [this, false_and, false_or, true_and]
  cases p.flx 5 <;> simp

theorem rng_ends {a b : ℤ} (h : a < b) : rng a (b + 1) = a :: (rng (a + 1) b ++ [b + 1]) := by
  rw [rng_cons (by omega), rng_snoc (by omega)]

theorem append_product {α β : Type*} (l l' : List α) (m : List β) : (l ++ l') ×ˢ m = l ×ˢ m ++ l' ×ˢ m := by
  induction l with
  | nil => rfl
  | cons a l ih => rw [List.cons_append, List.product_cons, List.product_cons, ih, List.append_assoc]

theorem planeB2_eq (p : Parent R nf) (k : ℤ) (h : p.box.js < p.box.je) :
    p.planeB2 k = (rng p.box.js (p.box.je + 1) ×ˢ rng p.box.is p.box.ie).map fun x => actB p 1 (k, x.1, x.2) := by
  unfold Parent.planeB2
  rw [if_pos h, if_pos h, rng_ends h, List.product_cons, append_product, List.map_append, List.map_append,
    List.map_map, List.product_cons, List.nil_product, List.append_nil, List.map_map, List.append_assoc]
  congr 1
  · apply List.map_congr_left; intro i _; exact actB1_lo p k i h
  · congr 1
    · apply List.map_congr_left
      rintro ⟨j, i⟩ hx
      rw [List.mem_product, mem_rng] at hx
      funext w s
      simp only [Parent.face, actB, skip, show (1 : Fin 3) ≠ 0 by decide, if_true, if_false]
      rw [if_neg]
      simp; omega
    · apply List.map_congr_left; intro i _; exact actB1_hi p k i h

theorem volB3_eq (p : Parent R nf) (h : p.box.ks < p.box.ke) :
    p.volB3 = (rng p.box.ks (p.box.ke + 1) ×ˢ (rng p.box.js p.box.je ×ˢ rng p.box.is p.box.ie)).map (actB p 2) := by
  unfold Parent.volB3
  rw [if_pos h, if_pos h, rng_ends h, List.product_cons, append_product, List.map_append, List.map_append,
    List.map_map, List.product_cons, List.nil_product, List.append_nil, List.map_map, List.append_assoc]
  congr 1
  · apply List.map_congr_left; intro x _; exact actB2_lo p x.1 x.2 h
  · congr 1
    · apply List.map_congr_left
      rintro ⟨k, j, i⟩ hx
      rw [List.mem_product, mem_rng] at hx
      funext w s
      simp only [Parent.face, actB, skip, show (2 : Fin 3) ≠ 0 by decide, show (2 : Fin 3) ≠ 1 by decide, if_false]
      rw [if_neg]
      simp; omega
    · apply List.map_congr_left; intro x _; exact actB2_hi p x.1 x.2 h

/-- The faces normal to `m` after the words for them have been read. -/
def putB (c : Child R nf) (p : Parent R nf) (m : Fin 3) (s : PState R nf) : PState R nf :=
  { s with B := fun n z => if n = m ∧ z ∈ faces p m ∧ skip p m z = false then fldW c p m z else s.B n z }

theorem pops_faces (c : Child R nf) (p : Parent R nf) (m : Fin 3) (s : PState R nf) (rest : List R) :
    pops ((faces p m).map (actB p m)) (s, (faces p m).map (fldW c p m) ++ rest) = some (putB c p m s, rest) := by
  rw [pops_map]
  congr 2
  unfold putB
  generalize faces p m = l
  induction l generalizing s with
  | nil => simp
  | cons a l ih =>
    rw [List.foldl_cons, ih]
    unfold actB
    by_cases hs : skip p m a = true
    · rw [if_pos hs]
      congr 1
      funext n z
      by_cases hz : z = a
      · subst hz
        rw [if_neg (by simp [hs]), if_neg (by simp [hs])]
      · simp only [List.mem_cons, hz, false_or]
    · rw [if_neg hs]
      simp only [PState.setB]
      congr 1
      funext n z
      by_cases hn : n = m
      · subst hn
        simp only [true_and, if_true, upd]
        by_cases hz : z = a
        · subst hz
          simp only [Bool.not_eq_true] at hs
          simp [hs]
        · simp [hz]
      · simp [hn]

/-- Cell-centred fields of the zones of a list from the faces. -/
theorem foldl_centre3 (l : List Z3) (s : PState R nf) :
    l.foldl (fun s z => Parent.centre 2 z (Parent.centre 1 z (Parent.centre 0 z s))) s =
      { s with U := fun y => if y.1 ∈ l then (match y.2 with
        | .f _ => s.U y
        | .b m => 1/2*(s.B m y.1 + s.B m (Parent.nextF m y.1))) else s.U y } := by
  induction l generalizing s with
  | nil => simp
  | cons a l ih =>
    rw [List.foldl_cons, ih]
    simp only [Parent.centre, PState.setU]
    congr 1
    funext ⟨z, v⟩
    cases v with
    | f n => simp [upd]
    | b m =>
      by_cases hz : z ∈ l
      · simp [hz]
      · by_cases ha : z = a
        · subst ha
          rcases (by omega : m = 0 ∨ m = 1 ∨ m = 2) with rfl | rfl | rfl <;> simp [hz, upd]
        · simp [hz, ha, upd]

theorem foldl_centre2 (l : List Z3) (s : PState R nf) :
    l.foldl (fun s z => let s' := Parent.centre 1 z (Parent.centre 0 z s)
        s'.setB 2 z (s'.U (z, .b 2))) s =
      { s with
        U := fun y => if y.1 ∈ l then (match y.2 with
          | .f _ => s.U y
          | .b m => if m = 2 then s.U y else 1/2*(s.B m y.1 + s.B m (Parent.nextF m y.1))) else s.U y
        B := fun m z => if m = 2 ∧ z ∈ l then s.U (z, .b 2) else s.B m z } := by
  induction l generalizing s with
  | nil => simp
  | cons a l ih =>
    rw [List.foldl_cons, ih]
    simp only [Parent.centre, PState.setU, PState.setB]
    congr 1
    · funext ⟨z, v⟩
      cases v with
      | f n => simp [upd]
      | b m =>
        by_cases hz : z ∈ l
        · rcases (by omega : m = 0 ∨ m = 1 ∨ m = 2) with rfl | rfl | rfl <;> simp [hz, upd]
        · by_cases ha : z = a
          · subst ha
            rcases (by omega : m = 0 ∨ m = 1 ∨ m = 2) with rfl | rfl | rfl <;> simp [hz, upd]
          · simp [hz, ha, upd]
    · funext m z
      rcases (by omega : m = 0 ∨ m = 1 ∨ m = 2) with rfl | rfl | rfl
      · simp
      · simp
      · by_cases hz : z ∈ l
        · simp [hz, upd]
        · by_cases ha : z = a
          · subst ha; simp [hz, upd]
          · simp [hz, ha, upd]

theorem foldl_centre1 (l : List Z3) (s : PState R nf) :
    l.foldl (fun s z => ((s.setB 0 z (s.U (z, .b 0))).setB 1 z (s.U (z, .b 1))).setB 2 z (s.U (z, .b 2))) s =
      { s with B := fun m z => if z ∈ l then s.U (z, .b m) else s.B m z } := by
  induction l generalizing s with
  | nil => simp
  | cons a l ih =>
    rw [List.foldl_cons, ih]
    simp only [PState.setB]
    congr 1
    funext m z
    by_cases hz : z ∈ l
    · simp [hz]
    · by_cases ha : z = a
      · subst ha
        rcases (by omega : m = 0 ∨ m = 1 ∨ m = 2) with rfl | rfl | rfl <;> simp [hz, upd]
      · rcases (by omega : m = 0 ∨ m = 1 ∨ m = 2) with rfl | rfl | rfl <;> simp [hz, ha, upd]

/-- The face fields after injection. -/
def injB (c : Child R nf) (p : Parent R nf) (s : PState R nf) (m : Fin 3) (z : Z3) : R :=
  if p.zones = [] then s.B m z
  else if 1 < p.nDim ∧ m.val < p.nDim then
    (if z ∈ faces p m ∧ skip p m z = false then fldW c p m z else s.B m z)
  else if z ∈ p.zones then s.U (z, .b m) else s.B m z

/-- The variables after injection of the field. -/
def injU (c : Child R nf) (p : Parent R nf) (s : PState R nf) (y : Z3 × Var nf) : R :=
  match y.2 with
  | .f _ => s.U y
  | .b m => if y.1 ∈ p.zones ∧ 1 < p.nDim ∧ m.val < p.nDim then
      1/2*(injB c p s m y.1 + injB c p s m (Parent.nextF m y.1)) else s.U y

theorem foldl_map' {α β γ : Type*} (l : List α) (f : α → β) (g : γ → β → γ) (s : γ) :
    l.foldl (fun s x => g s (f x)) s = (l.map f).foldl g s := by
  rw [List.foldl_map]

theorem injectB_eq {c : Child R nf} {p : Parent R nf} (h : Match c p) (ht : Thick p) (s : PState R nf) (rest : List R) :
    p.injectB (s, fldWs c p ++ rest) = some ({ s with U := injU c p s, B := injB c p s }, rest) := by
  have d1 := h.dim1
  have d3 := h.dim3
  unfold Parent.injectB
  rcases (by omega : p.nDim = 1 ∨ p.nDim = 2 ∨ p.nDim = 3) with hD | hD | hD
  · rw [if_pos hD]
    have e2 := h.x2' (by omega)
    have e3 := h.x3' (by omega)
    have hz : p.zones = (rng p.box.is p.box.ie).map fun i => (p.box.ks, p.box.js, i) := by
      rw [Parent.zones, ← e2.2.2, ← e3.2.2, rng_single, rng_single, List.product_cons, List.product_cons]
      simp
    rw [fldWs, if_pos (Or.inr hD), List.nil_append]
    unfold pur
    congr 2
    dsimp only
    rw [foldl_map' _ (fun i => (p.box.ks, p.box.js, i)) (fun (s : PState R nf) z =>
      ((s.setB 0 z (s.U (z, .b 0))).setB 1 z (s.U (z, .b 1))).setB 2 z (s.U (z, .b 2))), ← hz, foldl_centre1]
    have hU : s.U = injU c p s := by
      funext ⟨z, v⟩; cases v <;> simp [injU, hD]
    have hB : (fun m z => if z ∈ p.zones then s.U (z, .b m) else s.B m z) = injB c p s := by
      funext m z
      unfold injB
      rw [hD]
      by_cases hn : p.zones = []
      · simp [hn]
      · simp [hn]
    rw [← hB, ← hU]
  · rw [if_neg (by omega), if_pos hD]
    have e3 := h.x3' (by omega)
    have hz : p.zones = (rng p.box.js p.box.je ×ˢ rng p.box.is p.box.ie).map fun x => (p.box.ks, x.1, x.2) := by
      rw [Parent.zones, ← e3.2.2, rng_single, List.product_cons]
      simp
    by_cases hn : p.zones = []
    · have hp : rng p.box.js p.box.je ×ˢ rng p.box.is p.box.ie = [] := by
        rw [hz] at hn; simpa using hn
      rw [fldWs, if_pos (Or.inl hn), List.nil_append, hp]
      have a1 : ((rng p.box.js p.box.je).flatMap fun j => p.rowB1 p.box.ks j) = [] := by
        rw [product_eq_nil, rng_eq_nil, rng_eq_nil] at hp
        rcases hp with hp | hp
        · rw [rng_empty hp]; rfl
        · unfold Parent.rowB1
          rw [rng_empty (by omega : p.box.ie < p.box.is + 1)]; simp
      have a2 : p.planeB2 p.box.ks = [] := by
        rw [product_eq_nil, rng_eq_nil, rng_eq_nil] at hp
        unfold Parent.planeB2
        rcases hp with hp | hp
        · rw [if_neg (by omega), if_neg (by omega), rng_empty (by omega : p.box.je < p.box.js + 1)]; rfl
        · rw [rng_empty hp]; simp [List.product_nil]
      rw [a1, a2]
      simp only [seqs, pops, pur, Option.bind_some, List.foldl_nil]
      have hU : injU c p s = s.U := by
        funext ⟨z, v⟩; cases v <;> simp [injU, hn]
      have hB : injB c p s = s.B := by
        funext m z; simp [injB, hn]
      rw [hU, hB]
    · rcases ht with ht | ht | ht
      · exact absurd ht hn
      · omega
      · have f0 : ((rng p.box.js p.box.je).flatMap fun j => p.rowB1 p.box.ks j) = (faces p 0).map (actB p 0) := by
          simp only [rowB1_eq p _ _ ht.1]
          rw [flatMap_map_product _ _ (fun j i => actB p 0 (p.box.ks, j, i))]
          simp only [faces, if_true, show (0 : Fin 3) ≠ 1 by decide, show (0 : Fin 3) ≠ 2 by decide, if_false]
          rw [← e3.2.2, rng_single, List.product_cons]
          simp
        have f1 : p.planeB2 p.box.ks = (faces p 1).map (actB p 1) := by
          rw [planeB2_eq p _ ht.2.1]
          simp only [faces, if_true, show (1 : Fin 3) ≠ 0 by decide, show (1 : Fin 3) ≠ 2 by decide, if_false]
          rw [← e3.2.2, rng_single, List.product_cons]
          simp
        rw [fldWs, if_neg (by simp [hn, hD]), if_neg (by omega), List.append_nil, f0, f1]
        simp only [seqs]
        rw [List.append_assoc, pops_faces, Option.bind_some, pops_faces, Option.bind_some]
        unfold pur
        rw [Option.bind_some]
        dsimp only
        rw [foldl_map' _ (fun x : ℤ × ℤ => (p.box.ks, x.1, x.2)) (fun s z =>
          let s' := Parent.centre 1 z (Parent.centre 0 z s)
          s'.setB 2 z (s'.U (z, .b 2))), ← hz, foldl_centre2]
        have hB : ∀ m z, (m = 0 ∨ m = 1) → (putB c p 1 (putB c p 0 s)).B m z = injB c p s m z := by
          intro m z hm
          unfold injB
          rw [if_neg hn, if_pos (by rcases hm with rfl | rfl <;> simp [hD])]
          rcases hm with rfl | rfl <;> simp [putB]
        congr 2
        congr 1
        · funext ⟨z, v⟩
          cases v with
          | f n => simp [injU, putB]
          | b m =>
            rcases (by omega : m = 0 ∨ m = 1 ∨ m = 2) with rfl | rfl | rfl
            · simp only [hB _ _ (Or.inl rfl), injU]; simp [hD, putB]
            · simp only [hB _ _ (Or.inr rfl), injU]; simp [hD, putB]
            · simp [injU, hD, putB]
        · funext m z
          rcases (by omega : m = 0 ∨ m = 1 ∨ m = 2) with rfl | rfl | rfl
          · simp [hB]
          · simp [hB]
          · simp [injB, hn, hD, putB]
  · rw [if_neg (by omega), if_neg (by omega)]
    by_cases hn : p.zones = []
    · rw [fldWs, if_pos (Or.inl hn), List.nil_append, hn]
      rw [zones_nil] at hn
      have a1 : ((rng p.box.ks p.box.ke ×ˢ rng p.box.js p.box.je).flatMap fun x => p.rowB1 x.1 x.2) = [] := by
        rcases hn with hn | hn | hn
        · rw [rng_empty hn]; simp
        · rw [rng_empty hn]; simp [List.product_nil]
        · unfold Parent.rowB1
          rw [rng_empty (by omega : p.box.ie < p.box.is + 1)]; simp
      have a2 : (if p.box.js < p.box.je then (rng p.box.ks p.box.ke).flatMap fun k => p.planeB2 k else []) = [] := by
        rcases hn with hn | hn | hn
        · rw [rng_empty hn]; simp
        · rw [if_neg (by omega)]
        · unfold Parent.planeB2
          rw [rng_empty hn]; simp [List.product_nil]
      have a3 : p.volB3 = [] := by
        unfold Parent.volB3
        rcases hn with hn | hn | hn
        · rw [if_neg (by omega), if_neg (by omega), rng_empty (by omega : p.box.ke < p.box.ks + 1)]; rfl
        · rw [rng_empty hn]; simp [List.product_nil]
        · rw [rng_empty hn]; simp [List.product_nil]
      rw [a1, a2, a3]
      simp only [seqs, pops, pur, Option.bind_some, List.foldl_nil]
      have hn' := (zones_nil p).2 hn
      have hU : injU c p s = s.U := by
        funext ⟨z, v⟩; cases v <;> simp [injU, hn']
      have hB : injB c p s = s.B := by
        funext m z; simp [injB, hn']
      rw [hU, hB]
    · rcases ht with ht | ht | ht
      · exact absurd ht hn
      · omega
      · have f0 : ((rng p.box.ks p.box.ke ×ˢ rng p.box.js p.box.je).flatMap fun x => p.rowB1 x.1 x.2)
            = (faces p 0).map (actB p 0) := by
          simp only [rowB1_eq p _ _ ht.1]
          rw [flatMap_map_product _ _ (fun (x : ℤ × ℤ) i => actB p 0 (x.1, x.2, i))]
          rw [product_assoc_map _ _ _ (fun k j i => actB p 0 (k, j, i))]
          simp only [faces, if_true, show (0 : Fin 3) ≠ 1 by decide, show (0 : Fin 3) ≠ 2 by decide, if_false]
        have f1 : (if p.box.js < p.box.je then (rng p.box.ks p.box.ke).flatMap fun k => p.planeB2 k else [])
            = (faces p 1).map (actB p 1) := by
          rw [if_pos ht.2.1]
          simp only [planeB2_eq p _ ht.2.1]
          rw [flatMap_map_product _ _ (fun k (x : ℤ × ℤ) => actB p 1 (k, x.1, x.2))]
          simp only [faces, if_true, show (1 : Fin 3) ≠ 0 by decide, show (1 : Fin 3) ≠ 2 by decide, if_false]
        have f2 : p.volB3 = (faces p 2).map (actB p 2) := by
          rw [volB3_eq p (ht.2.2 hD)]
          simp only [faces, if_true, show (2 : Fin 3) ≠ 0 by decide, show (2 : Fin 3) ≠ 1 by decide, if_false]
        rw [fldWs, if_neg (show ¬ (p.zones = [] ∨ p.nDim = 1) by simp [hn, hD]), if_pos hD, f0, f1, f2]
        simp only [seqs]
        rw [List.append_assoc, List.append_assoc, pops_faces, Option.bind_some, pops_faces, Option.bind_some, pops_faces,
          Option.bind_some]
        unfold pur
        rw [Option.bind_some]
        dsimp only
        rw [foldl_centre3]
        have hB : ∀ m z, (putB c p 2 (putB c p 1 (putB c p 0 s))).B m z = injB c p s m z := by
          intro m z
          unfold injB
          rw [if_neg hn, if_pos (by omega)]
          rcases (by omega : m = 0 ∨ m = 1 ∨ m = 2) with rfl | rfl | rfl <;> simp [putB]
        congr 2
        congr 1
        · funext ⟨z, v⟩
          cases v with
          | f n => simp [injU, putB]
          | b m =>
            simp only [hB, injU]
            have : (m.val < 3) = True := by simp
            simp [hD, putB]
        · funext m z; exact hB m z

end Athena.Smr
