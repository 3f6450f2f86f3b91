import Verif.Smr.REmf

/-!
# The EMF correction of `RestrictCorrect`, boundary by boundary
-/

namespace Athena.Smr

variable {R : Type*} [Field R] {nf : Nat}

open Child (normal)

/-- A loop with two additions in each iteration. -/
theorem each_add2 (l : List ℤ) (hl : l.Nodup) (m : Fin 3) (g g' : ℤ → Z3) (r : Z3 → ℤ) (lo : Z3 → Bool)
    (hr : ∀ x, r (g x) = x) (hr' : ∀ x, r (g' x) = x) (h1 : ∀ x, lo (g x) = true) (h2 : ∀ x, lo (g' x) = false)
    (f f' : ℤ → (Fin 3 → ℤ × ℤ → R) → R) (s : PState R nf) (rest : List R) :
    Parent.each l (fun x s =>
        let s' := Parent.addB m (g x) (f x s.e) s
        Parent.addB m (g' x) (f' x s'.e) s') (s, rest) =
      some ({ s with B := plusB s.B m fun z =>
        (if r z ∈ l ∧ g (r z) = z then f (r z) s.e else 0) + if r z ∈ l ∧ g' (r z) = z then f' (r z) s.e else 0 }, rest) := by
  have key := each_add (nf := nf) (l ×ˢ [true, false]) (hl.product (by simp)) m
    (fun x => if x.2 then g x.1 else g' x.1) (fun z => (r z, lo z))
    (by
      rintro ⟨x, b⟩
      cases b <;> simp [hr, hr', h1, h2])
    (fun x e => if x.2 then f x.1 e else f' x.1 e) s rest
  have conv : Parent.each l (fun x s =>
        let s' := Parent.addB m (g x) (f x s.e) s
        Parent.addB m (g' x) (f' x s'.e) s') (s, rest) =
      Parent.each (l ×ˢ [true, false]) (fun x s => Parent.addB m (if x.2 then g x.1 else g' x.1)
        (if x.2 then f x.1 s.e else f' x.1 s.e) s) (s, rest) := by
    unfold Parent.each pur
    congr 2
    dsimp only
    clear key hl
    induction l generalizing s with
    | nil => rfl
    | cons a l ih =>
      rw [List.foldl_cons, ih, List.product_cons, List.foldl_append]
      rfl
  rw [conv, key]
  congr 2
  congr 1
  congr 1
  funext z
  have hm : ((r z, lo z) ∈ l ×ˢ [true, false]) = (r z ∈ l) := by
    rw [List.mem_product]; cases lo z <;> simp
  simp only [hm]
  cases hlo : lo z
  · have : ¬ g (r z) = z := fun e => by rw [← e, h1] at hlo; exact absurd hlo (by decide)
    simp [this]
  · have : ¬ g' (r z) = z := fun e => by rw [← e, h2] at hlo; exact absurd hlo (by decide)
    simp [this]

/-- Rows of EMFs whose last element is treated separately. -/
theorem emf_rows (e m : Fin 3) (a b c d : ℤ) (h : c ≤ d + 1) (E : ℤ → ℤ → R) (q : R) (use : Bool) (g : ℤ → ℤ → Z3) :
    ((rng a b).flatMap fun k =>
        ((rng c d).map fun j => Parent.emfPop (nf := nf) e (k - a, j - c) (E (k - a) (j - c)) q true m (g k j)) ++
        [Parent.emfPop e (k - a, d - c + 1) (E (k - a) (d - c + 1)) q use m (g k (d + 1))]) =
      (rng a b ×ˢ rng c (d + 1)).map fun x => Parent.emfPop e (x.1 - a, x.2 - c) (E (x.1 - a) (x.2 - c)) q
        (decide (x.2 ≤ d) || use) m (g x.1 x.2) := by
  rw [← flatMap_map_product (rng a b) (rng c (d+1)) (fun k j => Parent.emfPop (nf := nf) e (k - a, j - c) (E (k - a) (j - c)) q
        (decide (j ≤ d) || use) m (g k j))]
  apply List.flatMap_congr
  intro k _
  rw [rng_snoc h, List.map_append]
  congr 1
  · apply List.map_congr_left
    intro j hj
    rw [mem_rng] at hj
    rw [decide_eq_true hj.2, Bool.true_or]
  · simp only [List.map_cons, List.map_nil]
    rw [show d + 1 - c = d - c + 1 by ring]
    have : decide (d + 1 ≤ d) = false := by simp
    rw [this, Bool.false_or]

/-- Planes of EMFs whose last row is treated separately. -/
theorem emf_planes (e m : Fin 3) (a b c d : ℤ) (h : a ≤ b + 1) (E : ℤ → ℤ → R) (q : R) (use : Bool) (g : ℤ → ℤ → Z3) :
    ((rng a b ×ˢ rng c d).map fun x =>
        Parent.emfPop (nf := nf) e (x.1 - a, x.2 - c) (E (x.1 - a) (x.2 - c)) q true m (g x.1 x.2)) ++
      ((rng c d).map fun j =>
        Parent.emfPop e (b - a + 1, j - c) (E (b - a + 1) (j - c)) q use m (g (b + 1) j)) =
      (rng a (b + 1) ×ˢ rng c d).map fun x => Parent.emfPop e (x.1 - a, x.2 - c) (E (x.1 - a) (x.2 - c)) q
        (decide (x.1 ≤ b) || use) m (g x.1 x.2) := by
  rw [rng_snoc h, append_product, List.map_append]
  congr 1
  · apply List.map_congr_left
    rintro ⟨k, j⟩ hx
    rw [List.mem_product, mem_rng] at hx
    dsimp only
    rw [decide_eq_true hx.1.2, Bool.true_or]
  · rw [List.product_cons, List.nil_product, List.append_nil, List.map_map]
    apply List.map_congr_left
    intro j _
    simp only [Function.comp]
    rw [show b + 1 - a = b - a + 1 by ring]
    have : decide (b + 1 ≤ b) = false := by simp
    rw [this, Bool.false_or]

/-- `each_add` with the additions given as a function of the face. -/
theorem each_addD {β : Type*} [DecidableEq β] (l : List β) (hl : l.Nodup) (m : Fin 3) (g : β → Z3) (r : Z3 → β)
    (hr : ∀ x, r (g x) = x) (f : β → (Fin 3 → ℤ × ℤ → R) → R) (s : PState R nf) (rest : List R) (D : Z3 → R)
    (h1 : ∀ x ∈ l, D (g x) = f x s.e) (h0 : ∀ z, (∀ x ∈ l, g x ≠ z) → D z = 0) :
    ∃ s', Parent.each l (fun x s => Parent.addB m (g x) (f x s.e) s) (s, rest) = some (s', rest) ∧ s'.U = s.U ∧
      s'.e = s.e ∧ ∀ n z, s'.B n z = s.B n z + if n = m then D z else 0 := by
  refine ⟨_, each_add l hl m g r hr f s rest, rfl, rfl, ?_⟩
  intro n z
  by_cases hn : n = m
  · subst hn
    simp only [plusB, if_true]
    congr 1
    by_cases hc : r z ∈ l ∧ g (r z) = z
    · rw [if_pos hc, ← h1 _ hc.1, hc.2]
    · rw [if_neg hc, h0]
      intro x hx e
      exact hc (by rw [← e, hr]; exact ⟨hx, rfl⟩)
  · simp [plusB, hn]

/-- `each_add2` likewise. -/
theorem each_add2D (l : List ℤ) (hl : l.Nodup) (m : Fin 3) (g g' : ℤ → Z3) (r : Z3 → ℤ)
    (hr : ∀ x, r (g x) = x) (hr' : ∀ x, r (g' x) = x) (h12 : ∀ x y, g x ≠ g' y)
    (f f' : ℤ → (Fin 3 → ℤ × ℤ → R) → R) (s : PState R nf) (rest : List R) (D : Z3 → R)
    (h1 : ∀ x ∈ l, D (g x) = f x s.e) (h2 : ∀ x ∈ l, D (g' x) = f' x s.e)
    (h0 : ∀ z, (∀ x ∈ l, g x ≠ z) → (∀ x ∈ l, g' x ≠ z) → D z = 0) :
    ∃ s', Parent.each l (fun x s => Parent.addB m (g' x) (f' x (Parent.addB m (g x) (f x s.e) s).e)
        (Parent.addB m (g x) (f x s.e) s)) (s, rest) = some (s', rest) ∧ s'.U = s.U ∧
      s'.e = s.e ∧ ∀ n z, s'.B n z = s.B n z + if n = m then D z else 0 := by
  refine ⟨_, each_add2 l hl m g g' r (fun z => decide (g (r z) = z)) hr hr' (fun x => by simp [hr])
    (fun x => by simp [hr', h12]) f f' s rest, rfl, rfl, ?_⟩
  intro n z
  by_cases hn : n = m
  · subst hn
    simp only [plusB, if_true]
    congr 1
    by_cases hc : r z ∈ l ∧ g (r z) = z
    · have : ¬ (r z ∈ l ∧ g' (r z) = z) := fun e => h12 (r z) (r z) (hc.2.trans e.2.symm)
      rw [if_pos hc, if_neg this, ← h1 _ hc.1, hc.2, add_zero]
    · by_cases hc' : r z ∈ l ∧ g' (r z) = z
      · rw [if_neg hc, if_pos hc', ← h2 _ hc'.1, hc'.2, zero_add]
      · rw [if_neg hc, if_neg hc', add_zero, h0]
        · intro x hx e
          exact hc (by rw [← e, hr]; exact ⟨hx, rfl⟩)
        · intro x hx e
          exact hc' (by rw [← e, hr']; exact ⟨hx, rfl⟩)
  · simp [plusB, hn]

/-- `pops_emf` likewise. -/
theorem pops_emfD {β : Type*} [DecidableEq β] (l : List β) (hl : l.Nodup) (e : Fin 3) (ij : β → ℤ × ℤ) (ri : ℤ × ℤ → β)
    (hri : ∀ x, ri (ij x) = x) (E : β → R) (cst : R) (use : β → Bool) (m : Fin 3) (g : β → Z3) (r : Z3 → β)
    (hr : ∀ x, r (g x) = x) (w : β → R) (s : PState R nf) (rest : List R) (D : Z3 → R)
    (h1 : ∀ x ∈ l, D (g x) = if use x then cst*(E x - w x) else 0) (h0 : ∀ z, (∀ x ∈ l, g x ≠ z) → D z = 0) :
    ∃ s' : PState R nf, pops (l.map fun x => Parent.emfPop e (ij x) (E x) cst (use x) m (g x)) (s, l.map w ++ rest) =
        some (s', rest) ∧ s'.U = s.U ∧
      (∀ x ∈ l, s'.e e (ij x) = w x) ∧ (∀ n, n ≠ e → s'.e n = s.e n) ∧
      ∀ n z, s'.B n z = s.B n z + if n = m then D z else 0 := by
  obtain ⟨s', q, u, b, e1, e2⟩ := pops_emf (nf := nf) l hl e ij ri hri E cst use m g r hr w s rest
  refine ⟨s', q, u, e1, e2, ?_⟩
  intro n z
  rw [b]
  by_cases hn : n = m
  · subst hn
    simp only [plusB, if_true]
    congr 1
    by_cases hc : r z ∈ l ∧ g (r z) = z
    · have := h1 _ hc.1
      rw [hc.2] at this
      rw [this]
      simp [hc]
    · rw [if_neg (by tauto), h0]
      intro x hx e
      exact hc (by rw [← e, hr]; exact ⟨hx, rfl⟩)
  · simp [plusB, hn]

section side1
variable (p : Parent R nf) (d : Fin 6)

/-- Index of the zones outside. -/
def iOut : ℤ := if d = 0 then p.box.is - 1 else p.box.ie + 1
/-- Index of the faces on the boundary. -/
def iBnd : ℤ := if d = 0 then p.box.is else p.box.ie + 1
/-- Is the last EMF of a row used? -/
def use3 : Bool := (p.emf3 3).isSome || p.box.je = p.je || p.box.ie < p.box.is
/-- Is the last row of EMFs used? -/
def use2 : Bool := (p.emf2 5).isSome || p.box.ke = p.ke || p.box.ie < p.box.is

/-- What the correction on an x1-boundary adds to the faces, if `δ3`, `δ2` are the differences of the EMFs on its
edges along x3 and x2: the faces outside that end at the boundary, the faces on the boundary, and (if the Grids
only touch) the faces beyond the boundary in its plane. -/
def D1 (δ3 δ2 : ℤ × ℤ → R) (n : Fin 3) (z : Z3) : R :=
  let b := p.box
  let x := (z.1, z.2.1)
  if n = 1 then
    (if (b.ks ≤ z.1 ∧ z.1 ≤ b.ke) ∧ (b.js ≤ z.2.1 ∧ z.2.1 ≤ b.je + 1) ∧ z.2.2 = iOut p d ∧
        (z.2.1 ≤ b.je ∨ use3 p = true) then p.q d * δ3 x else 0)
  else if n = 2 then
    (if p.nDim = 3 ∧ (b.ks ≤ z.1 ∧ z.1 ≤ b.ke + 1) ∧ (b.js ≤ z.2.1 ∧ z.2.1 ≤ b.je) ∧ z.2.2 = iOut p d ∧
        (z.1 ≤ b.ke ∨ use2 p = true) then -p.q d * δ2 x else 0)
  else
    (if (b.ks ≤ z.1 ∧ z.1 ≤ b.ke) ∧ (b.js ≤ z.2.1 ∧ z.2.1 ≤ b.je) ∧ z.2.2 = iBnd p d then
      p.dt / p.dx 1 * (δ3 (z.1, z.2.1 + 1) - δ3 x) else 0) +
    (if p.nDim = 3 ∧ (b.ks ≤ z.1 ∧ z.1 ≤ b.ke) ∧ (b.js ≤ z.2.1 ∧ z.2.1 ≤ b.je) ∧ z.2.2 = iBnd p d then
      -(p.dt / p.dx 2 * (δ2 (z.1 + 1, z.2.1) - δ2 x)) else 0) +
    (if b.ie < b.is ∧ (b.ks ≤ z.1 ∧ z.1 ≤ b.ke) ∧ z.2.2 = iBnd p d then
      (if z.2.1 = b.js - 1 then p.dt / p.dx 1 * δ3 (z.1, b.js)
        else if z.2.1 = b.je + 1 then -(p.dt / p.dx 1 * δ3 (z.1, b.je + 1)) else 0) else 0) +
    (if p.nDim = 3 ∧ b.ie < b.is ∧ (b.js ≤ z.2.1 ∧ z.2.1 ≤ b.je) ∧ z.2.2 = iBnd p d then
      (if z.1 = b.ks - 1 then -(p.dt / p.dx 2 * δ2 (b.ks, z.2.1))
        else if z.1 = b.ke + 1 then p.dt / p.dx 2 * δ2 (b.ke + 1, z.2.1) else 0) else 0)

/-- A piece of program that may be absent. -/
theorem opt_piece {c : Prop} [Decidable c] {f : Parent.Prog R nf} {s : PState R nf} {W W' : List R} {D : Fin 3 → Z3 → R}
    (h : c → ∃ s', f (s, W) = some (s', W') ∧ (∀ z n, s'.U (z, .f n) = s.U (z, .f n)) ∧ s'.e = s.e ∧
      ∀ n z, s'.B n z = s.B n z + D n z) (hW : ¬ c → W = W') :
    ∃ s', (if c then f else fun s => some s) (s, W) = some (s', W') ∧ (∀ z n, s'.U (z, .f n) = s.U (z, .f n)) ∧
      (s'.e = s.e) ∧ ∀ n z, s'.B n z = s.B n z + if c then D n z else 0 := by
  by_cases hc : c
  · rw [if_pos hc]
    simpa [hc] using h hc
  · rw [if_neg hc]
    exact ⟨s, by rw [hW hc], fun _ _ => rfl, rfl, fun n z => by simp [hc]⟩

theorem opt_piece' {c : Prop} [Decidable c] {f : Parent.Prog R nf} {s : PState R nf} {W W' : List R} {D : Fin 3 → Z3 → R}
    (h : c → ∃ s', f (s, W) = some (s', W') ∧ (∀ z n, s'.U (z, .f n) = s.U (z, .f n)) ∧
      ∀ n z, s'.B n z = s.B n z + D n z) (hW : ¬ c → W = W') :
    ∃ s', (if c then f else fun s => some s) (s, W) = some (s', W') ∧ (∀ z n, s'.U (z, .f n) = s.U (z, .f n)) ∧
      ∀ n z, s'.B n z = s.B n z + if c then D n z else 0 := by
  by_cases hc : c
  · rw [if_pos hc]
    simpa [hc] using h hc
  · rw [if_neg hc]
    exact ⟨s, by rw [hW hc], fun _ _ => rfl, fun n z => by simp [hc]⟩

theorem emfCorr1_eq (hj : p.box.js ≤ p.box.je + 1) (hk : p.box.ks ≤ p.box.ke + 1) (E3 E2 G3 G2 : ℤ → ℤ → R)
    (h3 : p.emf3 d = some E3) (h2 : p.nDim = 3 → p.emf2 d = some E2) (s : PState R nf) (rest : List R) :
    ∃ s', p.emfCorr1 d (s, (rng p.box.ks p.box.ke ×ˢ rng p.box.js (p.box.je + 1)).map (eW p 0 2 G3) ++
      (if p.nDim = 3 then (rng p.box.ks (p.box.ke + 1) ×ˢ rng p.box.js p.box.je).map (eW p 0 1 G2) else []) ++ rest) =
        some (s', rest) ∧
      (∀ z n, s'.U (z, .f n) = s.U (z, .f n)) ∧
      (∀ n z, s'.B n z = s.B n z + D1 p d (dE p 0 2 E3 G3) (dE p 0 1 E2 G2) n z) := by
  unfold Parent.emfCorr1
  rw [h3]
  dsimp only
  have hi : (if d = 0 then p.box.is - 1 else p.box.ie + 1) = iOut p d := rfl
  have hb : (if d = 0 then p.box.is else p.box.ie + 1) = iBnd p d := rfl
  have hu3 : ((p.emf3 3).isSome || decide (p.box.je = p.je) || decide (p.box.ie < p.box.is)) = use3 p := rfl
  have hu2 : ((p.emf2 5).isSome || decide (p.box.ke = p.ke) || decide (p.box.ie < p.box.is)) = use2 p := rfl
  simp only [hi, hb, hu3, hu2]
  generalize hδ3 : dE p 0 2 E3 G3 = δ3
  generalize hδ2 : dE p 0 1 E2 G2 = δ2
  have tb1 : (p.tb 0).1.1 = p.box.ks := rfl
  have tb2 : (p.tb 0).2.1 = p.box.js := rfl
  have d3 : ∀ k j, E3 (k - p.box.ks) (j - p.box.js) - eW p 0 2 G3 (k, j) = δ3 (k, j) := fun k j => by rw [← hδ3]; rfl
  have d2 : ∀ k j, E2 (k - p.box.ks) (j - p.box.js) - eW p 0 1 G2 (k, j) = δ2 (k, j) := fun k j => by rw [← hδ2]; rfl
  have hn1 : (rng p.box.ks p.box.ke ×ˢ rng p.box.js (p.box.je + 1)).Nodup := (nodup_rng _ _).product (nodup_rng _ _)
  have hn0 : (rng p.box.ks p.box.ke ×ˢ rng p.box.js p.box.je).Nodup := (nodup_rng _ _).product (nodup_rng _ _)
  have hn2 : (rng p.box.ks (p.box.ke + 1) ×ˢ rng p.box.js p.box.je).Nodup := (nodup_rng _ _).product (nodup_rng _ _)
  -- the EMFs along x3
  rw [emf_rows (nf := nf) 2 1 p.box.ks p.box.ke p.box.js p.box.je hj E3 (p.q d) (use3 p) (fun k j => (k, j, iOut p d))]
  obtain ⟨s1, q1, u1, e1, e1', b1⟩ := pops_emfD (nf := nf) (rng p.box.ks p.box.ke ×ˢ rng p.box.js (p.box.je + 1)) hn1 2
    (fun x => (x.1 - p.box.ks, x.2 - p.box.js)) (fun x => (x.1 + p.box.ks, x.2 + p.box.js)) (by intro x; simp)
    (fun x => E3 (x.1 - p.box.ks) (x.2 - p.box.js)) (p.q d) (fun x => decide (x.2 ≤ p.box.je) || use3 p) 1
    (fun x => (x.1, x.2, iOut p d)) (fun z => (z.1, z.2.1)) (fun x => rfl) (eW p 0 2 G3) s
    ((if p.nDim = 3 then (rng p.box.ks (p.box.ke + 1) ×ˢ rng p.box.js p.box.je).map (eW p 0 1 G2) else []) ++ rest)
    (D1 p d δ3 δ2 1)
    (by
      rintro ⟨k, j⟩ hx
      rw [List.mem_product, mem_rng, mem_rng] at hx
      simp only [D1, if_true, d3]
      simp [hx])
    (by
      rintro ⟨k, j, i⟩ hz
      simp only [D1, if_true]
      rw [if_neg]
      rintro ⟨a1, a2, a3, _⟩
      exact hz (k, j) (List.mem_product.2 ⟨mem_rng.2 a1, mem_rng.2 a2⟩) (by rw [← a3]))
  rw [List.append_assoc, seqs_cons _ _ _ _ q1]
  clear q1
  have he3 : ∀ k j, k ∈ rng p.box.ks p.box.ke → (p.box.js ≤ j ∧ j ≤ p.box.je + 1) →
      E3 (k - p.box.ks) (j - p.box.js) - s1.e 2 (k - p.box.ks, j - p.box.js) = δ3 (k, j) := by
    intro k j hk hj
    rw [e1 (k, j) (List.mem_product.2 ⟨hk, mem_rng.2 hj⟩), d3]
  -- the faces on the boundary
  obtain ⟨s2, q2, u2, e2, b2⟩ := each_addD (nf := nf) (rng p.box.ks p.box.ke ×ˢ rng p.box.js p.box.je) hn0 0
    (fun x => (x.1, x.2, iBnd p d)) (fun z => (z.1, z.2.1)) (fun x => rfl)
    (fun x e => -(-(p.dt / p.dx 1) * (E3 (x.1 - p.box.ks) (x.2 - p.box.js + 1) - e 2 (x.1 - p.box.ks, x.2 - p.box.js + 1))
          - -(p.dt / p.dx 1) * (E3 (x.1 - p.box.ks) (x.2 - p.box.js) - e 2 (x.1 - p.box.ks, x.2 - p.box.js)))) s1
    ((if p.nDim = 3 then (rng p.box.ks (p.box.ke + 1) ×ˢ rng p.box.js p.box.je).map (eW p 0 1 G2) else []) ++ rest)
    (fun z => if (p.box.ks ≤ z.1 ∧ z.1 ≤ p.box.ke) ∧ (p.box.js ≤ z.2.1 ∧ z.2.1 ≤ p.box.je) ∧ z.2.2 = iBnd p d then
      p.dt / p.dx 1 * (δ3 (z.1, z.2.1 + 1) - δ3 (z.1, z.2.1)) else 0)
    (by
      rintro ⟨k, j⟩ hx
      rw [List.mem_product, mem_rng, mem_rng] at hx
      dsimp only at hx ⊢
      rw [if_pos ⟨hx.1, hx.2, rfl⟩, show j - p.box.js + 1 = (j + 1) - p.box.js by ring,
        he3 k (j+1) (mem_rng.2 hx.1) (by omega), he3 k j (mem_rng.2 hx.1) (by omega)]
      ring)
    (by
      rintro ⟨k, j, i⟩ hz
      dsimp only
      rw [if_neg]
      rintro ⟨a1, a2, a3⟩
      exact hz (k, j) (List.mem_product.2 ⟨mem_rng.2 a1, mem_rng.2 a2⟩) (by rw [← a3]))
  rw [seqs_cons _ _ _ _ q2]
  clear q2
  -- the extra faces if the Grids only touch
  obtain ⟨s3, q3, u3, e3, b3⟩ := opt_piece (nf := nf) (c := p.box.ie < p.box.is) (s := s2)
    (D := fun n z => if n = 0 then (if (p.box.ks ≤ z.1 ∧ z.1 ≤ p.box.ke) ∧ z.2.2 = iBnd p d then
      (if z.2.1 = p.box.js - 1 then p.dt / p.dx 1 * δ3 (z.1, p.box.js)
        else if z.2.1 = p.box.je + 1 then -(p.dt / p.dx 1 * δ3 (z.1, p.box.je + 1)) else 0) else 0) else 0)
    (fun _ => by
      obtain ⟨s', q', u', e', b'⟩ := each_add2D (nf := nf) (rng p.box.ks p.box.ke) (nodup_rng _ _) 0
        (fun k => (k, p.box.js - 1, iBnd p d))
        (fun k => (k, p.box.je + 1, iBnd p d)) (fun z => z.1) (fun x => rfl) (fun x => rfl)
        (fun x y => by simp; omega)
        (fun k e => -(-(p.dt / p.dx 1) * (E3 (k - p.box.ks) 0 - e 2 (k - p.box.ks, 0))))
        (fun k e => -(p.dt / p.dx 1) * (E3 (k - p.box.ks) (p.box.je - p.box.js + 1) - e 2 (k - p.box.ks, p.box.je - p.box.js + 1)))
        s2 ((if p.nDim = 3 then (rng p.box.ks (p.box.ke + 1) ×ˢ rng p.box.js p.box.je).map (eW p 0 1 G2) else []) ++ rest)
        (fun z => if (p.box.ks ≤ z.1 ∧ z.1 ≤ p.box.ke) ∧ z.2.2 = iBnd p d then
      (if z.2.1 = p.box.js - 1 then p.dt / p.dx 1 * δ3 (z.1, p.box.js)
        else if z.2.1 = p.box.je + 1 then -(p.dt / p.dx 1 * δ3 (z.1, p.box.je + 1)) else 0) else 0)
        (by
          intro k hk'
          have := he3 k p.box.js hk' (by omega)
          rw [sub_self] at this
          rw [e2, this]
          simp [mem_rng.1 hk'])
        (by
          intro k hk'
          have := he3 k (p.box.je + 1) hk' (by omega)
          rw [e2, show p.box.je - p.box.js + 1 = p.box.je + 1 - p.box.js by ring, this]
          have : ¬ p.box.je + 1 = p.box.js - 1 := by omega
          simp [mem_rng.1 hk', this])
        (by
          rintro ⟨k, j, i⟩ z1 z2
          dsimp only
          by_cases hc : (p.box.ks ≤ k ∧ k ≤ p.box.ke) ∧ i = iBnd p d
          · rw [if_pos hc, if_neg, if_neg]
            · rintro rfl; exact z2 k (mem_rng.2 hc.1) (by rw [← hc.2])
            · rintro rfl; exact z1 k (mem_rng.2 hc.1) (by rw [← hc.2])
          · rw [if_neg hc])
      exact ⟨s', q', fun z n => by rw [u'], e', b'⟩)
    (fun _ => rfl)
  rw [seqs_cons _ _ _ _ q3]
  clear q3
  -- the EMFs along x2
  obtain ⟨s4, q4, u4, b4⟩ := opt_piece' (nf := nf) (c := p.nDim = 3)
    (f := match p.emf2 d with
        | none => fun _ => none
        | some e2 => seqs [
          pops ((rng p.box.ks p.box.ke ×ˢ rng p.box.js p.box.je).map fun x =>
            Parent.emfPop 1 (x.1 - p.box.ks, x.2 - p.box.js) (e2 (x.1 - p.box.ks) (x.2 - p.box.js)) (-p.q d) true
            2 (x.1, x.2, iOut p d)),
          pops ((rng p.box.js p.box.je).map fun j =>
            Parent.emfPop 1 (p.box.ke - p.box.ks + 1, j - p.box.js) (e2 (p.box.ke - p.box.ks + 1) (j - p.box.js)) (-p.q d)
              (use2 p) 2 (p.box.ke + 1, j, iOut p d)),
          Parent.each (rng p.box.ks p.box.ke ×ˢ rng p.box.js p.box.je) (fun x s => Parent.addB 0 (x.1, x.2, iBnd p d)
            (-(p.dt / p.dx 2)*(e2 (x.1 - p.box.ks + 1) (x.2 - p.box.js) - s.e 1 (x.1 - p.box.ks + 1, x.2 - p.box.js))
              - -(p.dt / p.dx 2)*(e2 (x.1 - p.box.ks) (x.2 - p.box.js) - s.e 1 (x.1 - p.box.ks, x.2 - p.box.js))) s),
          (if p.box.ie < p.box.is then Parent.each (rng p.box.js p.box.je) (fun j s =>
              Parent.addB 0 (p.box.ke + 1, j, iBnd p d)
                (-(-(p.dt / p.dx 2)*(e2 (p.box.ke - p.box.ks + 1) (j - p.box.js) -
                  (Parent.addB 0 (p.box.ks - 1, j, iBnd p d) (-(p.dt / p.dx 2)*(e2 0 (j - p.box.js) - s.e 1 (0, j - p.box.js))) s).e 1
                    (p.box.ke - p.box.ks + 1, j - p.box.js))))
                (Parent.addB 0 (p.box.ks - 1, j, iBnd p d) (-(p.dt / p.dx 2)*(e2 0 (j - p.box.js) - s.e 1 (0, j - p.box.js))) s))
            else fun s => some s),
          Parent.each (rng (p.box.ks - 1) (p.box.ke + 1) ×ˢ rng p.box.js p.box.je)
            (fun x => Parent.centre 2 (x.1, x.2, iOut p d))]) (s := s3)
    (W := (if p.nDim = 3 then (rng p.box.ks (p.box.ke + 1) ×ˢ rng p.box.js p.box.je).map (eW p 0 1 G2) else []) ++ rest)
    (W' := rest)
    (D := fun n z => if n = 2 then D1 p d δ3 δ2 2 z else if n = 0 then
        (if (p.box.ks ≤ z.1 ∧ z.1 ≤ p.box.ke) ∧ (p.box.js ≤ z.2.1 ∧ z.2.1 ≤ p.box.je) ∧ z.2.2 = iBnd p d then
          -(p.dt / p.dx 2 * (δ2 (z.1 + 1, z.2.1) - δ2 (z.1, z.2.1))) else 0) +
        (if p.box.ie < p.box.is ∧ (p.box.js ≤ z.2.1 ∧ z.2.1 ≤ p.box.je) ∧ z.2.2 = iBnd p d then
          (if z.1 = p.box.ks - 1 then -(p.dt / p.dx 2 * δ2 (p.box.ks, z.2.1))
          else if z.1 = p.box.ke + 1 then p.dt / p.dx 2 * δ2 (p.box.ke + 1, z.2.1) else 0) else 0) else 0)
    (fun hD => by
      rw [h2 hD, if_pos hD]
      dsimp only
      obtain ⟨t1, r1, v1, f1, f1', c1⟩ := pops_emfD (nf := nf) (rng p.box.ks (p.box.ke + 1) ×ˢ rng p.box.js p.box.je) hn2 1
        (fun x => (x.1 - p.box.ks, x.2 - p.box.js)) (fun x => (x.1 + p.box.ks, x.2 + p.box.js)) (by intro x; simp)
        (fun x => E2 (x.1 - p.box.ks) (x.2 - p.box.js)) (-p.q d) (fun x => decide (x.1 ≤ p.box.ke) || use2 p) 2
        (fun x => (x.1, x.2, iOut p d)) (fun z => (z.1, z.2.1)) (fun x => rfl) (eW p 0 1 G2) s3 rest
        (D1 p d δ3 δ2 2)
        (by
          rintro ⟨k, j⟩ hx
          rw [List.mem_product, mem_rng, mem_rng] at hx
          simp only [D1, show (2 : Fin 3) ≠ 1 by decide, if_true, if_false, d2]
          simp [hx, hD])
        (by
          rintro ⟨k, j, i⟩ hz
          simp only [D1, show (2 : Fin 3) ≠ 1 by decide, if_true, if_false]
          rw [if_neg]
          rintro ⟨_, a1, a2, a3, _⟩
          exact hz (k, j) (List.mem_product.2 ⟨mem_rng.2 a1, mem_rng.2 a2⟩) (by rw [← a3]))
      rw [← emf_planes (nf := nf) 1 2 p.box.ks p.box.ke p.box.js p.box.je hk E2 (-p.q d) (use2 p)
        (fun k j => (k, j, iOut p d)), pops_append] at r1
      obtain ⟨t0, r0, r1⟩ := Option.bind_eq_some_iff.1 r1
      rw [seqs_cons _ _ _ _ r0, seqs_cons _ _ _ _ r1]
      clear r0 r1
      have he2 : ∀ k j, (p.box.ks ≤ k ∧ k ≤ p.box.ke + 1) → j ∈ rng p.box.js p.box.je →
          E2 (k - p.box.ks) (j - p.box.js) - t1.e 1 (k - p.box.ks, j - p.box.js) = δ2 (k, j) := by
        intro k j hk hj
        rw [f1 (k, j) (List.mem_product.2 ⟨mem_rng.2 hk, hj⟩), d2]
      obtain ⟨t2, r2, v2, f2, c2⟩ := each_addD (nf := nf) (rng p.box.ks p.box.ke ×ˢ rng p.box.js p.box.je) hn0 0
        (fun x => (x.1, x.2, iBnd p d)) (fun z => (z.1, z.2.1)) (fun x => rfl)
        (fun x e => -(p.dt / p.dx 2)*(E2 (x.1 - p.box.ks + 1) (x.2 - p.box.js) - e 1 (x.1 - p.box.ks + 1, x.2 - p.box.js))
              - -(p.dt / p.dx 2)*(E2 (x.1 - p.box.ks) (x.2 - p.box.js) - e 1 (x.1 - p.box.ks, x.2 - p.box.js))) t1 rest
        (fun z => if (p.box.ks ≤ z.1 ∧ z.1 ≤ p.box.ke) ∧ (p.box.js ≤ z.2.1 ∧ z.2.1 ≤ p.box.je) ∧ z.2.2 = iBnd p d then
          -(p.dt / p.dx 2 * (δ2 (z.1 + 1, z.2.1) - δ2 (z.1, z.2.1))) else 0)
        (by
          rintro ⟨k, j⟩ hx
          rw [List.mem_product, mem_rng, mem_rng] at hx
          dsimp only at hx ⊢
          rw [if_pos ⟨hx.1, hx.2, rfl⟩, show k - p.box.ks + 1 = (k + 1) - p.box.ks by ring,
            he2 (k+1) j (by omega) (mem_rng.2 hx.2), he2 k j (by omega) (mem_rng.2 hx.2)]
          ring)
        (by
          rintro ⟨k, j, i⟩ hz
          dsimp only
          rw [if_neg]
          rintro ⟨a1, a2, a3⟩
          exact hz (k, j) (List.mem_product.2 ⟨mem_rng.2 a1, mem_rng.2 a2⟩) (by rw [← a3]))
      rw [seqs_cons _ _ _ _ r2]
      clear r2
      obtain ⟨t3, r3, v3, f3, c3⟩ := opt_piece (nf := nf) (c := p.box.ie < p.box.is) (s := t2) (W := rest) (W' := rest)
        (D := fun n z => if n = 0 then (if (p.box.js ≤ z.2.1 ∧ z.2.1 ≤ p.box.je) ∧ z.2.2 = iBnd p d then
          (if z.1 = p.box.ks - 1 then -(p.dt / p.dx 2 * δ2 (p.box.ks, z.2.1))
          else if z.1 = p.box.ke + 1 then p.dt / p.dx 2 * δ2 (p.box.ke + 1, z.2.1) else 0) else 0) else 0)
        (fun _ => by
          obtain ⟨s', q', u', e', b'⟩ := each_add2D (nf := nf) (rng p.box.js p.box.je) (nodup_rng _ _) 0
            (fun j => (p.box.ks - 1, j, iBnd p d))
            (fun j => (p.box.ke + 1, j, iBnd p d)) (fun z => z.2.1) (fun x => rfl) (fun x => rfl)
            (fun x y => by simp; omega)
            (fun j e => -(p.dt / p.dx 2)*(E2 0 (j - p.box.js) - e 1 (0, j - p.box.js)))
            (fun j e => -(-(p.dt / p.dx 2)*(E2 (p.box.ke - p.box.ks + 1) (j - p.box.js) - e 1 (p.box.ke - p.box.ks + 1, j - p.box.js))))
            t2 rest
            (fun z => if (p.box.js ≤ z.2.1 ∧ z.2.1 ≤ p.box.je) ∧ z.2.2 = iBnd p d then
              (if z.1 = p.box.ks - 1 then -(p.dt / p.dx 2 * δ2 (p.box.ks, z.2.1))
              else if z.1 = p.box.ke + 1 then p.dt / p.dx 2 * δ2 (p.box.ke + 1, z.2.1) else 0) else 0)
            (by
              intro j hj'
              have := he2 p.box.ks j (by omega) hj'
              rw [sub_self] at this
              rw [f2, this]
              simp [mem_rng.1 hj'])
            (by
              intro j hj'
              have := he2 (p.box.ke + 1) j (by omega) hj'
              rw [f2, show p.box.ke - p.box.ks + 1 = p.box.ke + 1 - p.box.ks by ring, this]
              have : ¬ p.box.ke + 1 = p.box.ks - 1 := by omega
              simp [mem_rng.1 hj', this])
            (by
              rintro ⟨k, j, i⟩ z1 z2
              dsimp only
              by_cases hc : (p.box.js ≤ j ∧ j ≤ p.box.je) ∧ i = iBnd p d
              · rw [if_pos hc, if_neg, if_neg]
                · rintro rfl; exact z2 j (mem_rng.2 hc.1) (by rw [← hc.2])
                · rintro rfl; exact z1 j (mem_rng.2 hc.1) (by rw [← hc.2])
              · rw [if_neg hc])
          exact ⟨s', q', fun z n => by rw [u'], e', b'⟩)
        (fun _ => rfl)
      rw [seqs_cons _ _ _ _ r3]
      clear r3
      obtain ⟨t4, r4, b4, f4, v4⟩ := each_U (nf := nf) (rng (p.box.ks - 1) (p.box.ke + 1) ×ˢ rng p.box.js p.box.je)
        (fun x => Parent.centre 2 (x.1, x.2, iOut p d)) (fun x => centre_UOnly _ _) t3 rest
      rw [seqs_cons _ _ _ _ r4]
      refine ⟨t4, rfl, fun z n => by rw [v4, v3, v2, v1], fun n z => ?_⟩
      rw [b4, c3, c2, c1]
      rcases (by omega : n = 0 ∨ n = 1 ∨ n = 2) with rfl | rfl | rfl
      · simp only [show (0 : Fin 3) ≠ 2 by decide, if_true, if_false, add_zero, add_assoc]
        congr 2
        by_cases hdeg : p.box.ie < p.box.is <;> simp [hdeg]
      · simp
      · simp)
    (fun hD => by rw [if_neg hD]; rfl)
  erw [seqs_cons _ _ _ _ q4]
  clear q4
  obtain ⟨s5, q5, b5, f5, u5⟩ := each_U (nf := nf) (rng p.box.ks p.box.ke)
    (fun k s => (rng (p.box.js - 1) (p.box.je + 1)).foldl (fun s j => Parent.centre 1 (k, j, iOut p d) s)
      ((rng p.box.js p.box.je).foldl (fun s j => Parent.centre 0 (k, j, iBnd p d - 1) (Parent.centre 0 (k, j, iBnd p d) s)) s))
    (fun k => UOnly.comp (UOnly.foldl _ (fun j => centre_UOnly _ _))
      (UOnly.foldl _ (fun j => UOnly.comp (centre_UOnly _ _) (centre_UOnly _ _)))) s4 rest
  rw [seqs_cons _ _ _ _ q5]
  refine ⟨s5, rfl, fun z n => by rw [u5, u4, u3, u2, u1], fun n z => ?_⟩
  rw [b5, b4, b3, b2, b1]
  rcases (by omega : n = 0 ∨ n = 1 ∨ n = 2) with rfl | rfl | rfl
  · simp only [D1, show (0 : Fin 3) ≠ 2 by decide, show (0 : Fin 3) ≠ 1 by decide, if_true, if_false, add_zero, add_assoc]
    congr 2
    by_cases hdeg : p.box.ie < p.box.is <;> by_cases hD : p.nDim = 3 <;> simp [hdeg, hD] <;> ring
  · simp
  · by_cases hD : p.nDim = 3 <;> simp [hD, D1]

end side1

end Athena.Smr
