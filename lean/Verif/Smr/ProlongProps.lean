import Verif.Smr.Prolong
import Verif.Smr.ProProps
import Mathlib.Tactic.FinCases

/-!
# C116: ghost zones of a refined Grid after `Prolongate`

Specification: `Fits`, `coarseOf`, `half`, `Ghost`, `interp`.
-/

namespace Athena.Smr

variable {R : Type*} [Field R] [LinearOrder R] {ns : Nat}

/-- All variables of a zone. -/
def PGrd.cell (P : PGrd R ns) (x : Z3) : Cell R ns := ⟨P.U x, P.B1 x, P.B2 x, P.B3 x⟩

namespace Ovl
variable (o : Ovl R)

/-! ## Specification -/

/-- The overlap covers the same region on both levels, in zones of half the size on the child; `nghost` is even. -/
structure Fits : Prop where
  dim : o.nDim = 1 ∨ o.nDim = 2 ∨ o.nDim = 3
  even : ∃ h, o.ng = 2 * h
  ci : o.c.is ≤ o.c.ie
  fi : o.f.ie - o.f.is + 1 = 2 * (o.c.ie - o.c.is + 1)
  cj : o.c.js ≤ o.c.je
  fj : 1 < o.nDim → o.f.je - o.f.js + 1 = 2 * (o.c.je - o.c.js + 1)
  fj1 : ¬ 1 < o.nDim → o.f.je = o.f.js ∧ o.c.je = o.c.js
  ck : o.c.ks ≤ o.c.ke
  fk : 2 < o.nDim → o.f.ke - o.f.ks + 1 = 2 * (o.c.ke - o.c.ks + 1)
  fk1 : ¬ 2 < o.nDim → o.f.ke = o.f.ks ∧ o.c.ke = o.c.ks

/-- The zone of the parent that contains a zone of the child. -/
def coarseOf (x : Z3) : Z3 :=
  (if 2 < o.nDim then o.c.ks + (x.1 - o.f.ks) / 2 else o.c.ks,
   if 1 < o.nDim then o.c.js + (x.2.1 - o.f.js) / 2 else o.c.js,
   o.c.is + (x.2.2 - o.f.is) / 2)

/-- In which half of that zone it lies, in each direction. -/
def half (x : Z3) : Fin 2 × Fin 2 × Fin 2 :=
  (if 2 < o.nDim then bit ((x.1 - o.f.ks) % 2) else 0,
   if 1 < o.nDim then bit ((x.2.1 - o.f.js) % 2) else 0,
   bit ((x.2.2 - o.f.is) % 2))

/-- The zones within `nghost` zones of the overlap (in the directions of the problem). -/
def near (x : Z3) : Prop :=
  (if 2 < o.nDim then o.f.ks - o.ng ≤ x.1 ∧ x.1 ≤ o.f.ke + o.ng else x.1 = o.f.ks) ∧
  (if 1 < o.nDim then o.f.js - o.ng ≤ x.2.1 ∧ x.2.1 ≤ o.f.je + o.ng else x.2.1 = o.f.js) ∧
  (o.f.is - o.ng ≤ x.2.2 ∧ x.2.2 ≤ o.f.ie + o.ng)

/-- Beyond boundary `d` of the overlap. -/
def beyond (d : Fin 6) (x : Z3) : Prop :=
  if d = 0 then x.2.2 < o.f.is else if d = 1 then o.f.ie < x.2.2 else if d = 2 then x.2.1 < o.f.js
  else if d = 3 then o.f.je < x.2.1 else if d = 4 then x.1 < o.f.ks else o.f.ke < x.1

/-- Ghost zones that the parent has to fill: beyond one of the boundaries of the overlap that are boundaries between levels. -/
def Ghost (x : Z3) : Prop := o.near x ∧ ∃ d : Fin 6, d.val < 2 * o.nDim ∧ o.flx d = true ∧ o.beyond d x

instance (x : Z3) : Decidable (o.near x) := by unfold near; infer_instance
instance (d : Fin 6) (x : Z3) : Decidable (o.beyond d x) := by unfold beyond; infer_instance
instance (x : Z3) : Decidable (o.Ghost x) := by unfold Ghost; infer_instance

/-- The zone at `y` displaced by `(a,b,c)`; in directions that do not exist the zone itself. -/
def disp (y : Z3) (a b c : ℤ) : Z3 := (if 2 < o.nDim then y.1 + a else y.1, if 1 < o.nDim then y.2.1 + b else y.2.1, y.2.2 + c)

/-- The parent's state there. -/
def nb (P : PGrd R ns) (y : Z3) (a b c : ℤ) : ConsS R ns := P.U (o.disp y a b c)

/-- The interpolation (C30) of the parent in the zone `x` of the child. -/
def interp (bad : ConsS R ns → Bool) (P : PGrd R ns) (x : Z3) : ConsS R ns :=
  let n := o.nb P (o.coarseOf x)
  proCon o.cf bad (n 0 0 (-1)) (n 0 0 0) (n 0 0 1) (n 0 (-1) 0) (n 0 1 0) (n (-1) 0 0) (n 1 0 0)
    (o.half x).1 (o.half x).2.1 (o.half x).2.2

/-- The members of `ConsS` that cell-centred prolongation determines: with MHD all but the field. -/
def fluid (u : ConsS R ns) : ConsS R ns := if o.cf.mhd then { u with b1 := 0, b2 := 0, b3 := 0 } else u

/-! ## Loops -/

theorem rng_shift (a b t : ℤ) : rng (a + t) (b + t) = (rng a b).map (· + t) := by
  unfold rng
  rw [List.map_map, show (b + t + 1 - (a + t)) = b + 1 - a by ring]
  apply List.map_congr_left
  intro n _
  simp only [Function.comp]
  ring

theorem mem_span {a b x : ℤ} : x ∈ rng a b ↔ a ≤ x ∧ x ≤ b := by
  unfold rng
  simp only [List.mem_map, List.mem_range]
  constructor
  · rintro ⟨n, h, rfl⟩; omega
  · intro h; exact ⟨(x - a).toNat, by omega, by omega⟩

theorem mem_pairs {a b : ℤ} {q : ℤ × ℤ} : q ∈ pairs a b ↔ ∃ n : ℕ, (n : ℤ) < (b - a) / 2 + 1 ∧ q = (a + 2 * (n : ℤ), 1 + (n : ℤ)) := by
  unfold pairs
  simp only [List.mem_map, List.mem_range]
  constructor
  · rintro ⟨n, h, rfl⟩; exact ⟨n, by omega, rfl⟩
  · rintro ⟨n, h, rfl⟩; exact ⟨n, by omega, rfl⟩

theorem map_prod_map {α β γ δ : Type*} (f : α → γ) (g : β → δ) (l : List α) (m : List β) :
    (l.map f) ×ˢ (m.map g) = (l ×ˢ m).map (fun x => (f x.1, g x.2)) := by
  induction l with
  | nil => rfl
  | cons a l ih =>
    simp only [List.map_cons, List.product_cons, List.map_append, ih, List.map_map]
    rfl

theorem loop_shift (b b' : Box) (tk tj ti : ℤ) (h1 : b'.ks = b.ks + tk) (h2 : b'.ke = b.ke + tk) (h3 : b'.js = b.js + tj)
    (h4 : b'.je = b.je + tj) (h5 : b'.is = b.is + ti) (h6 : b'.ie = b.ie + ti) :
    loop b' = (loop b).map fun x : Z3 => (x.1 + tk, x.2.1 + tj, x.2.2 + ti) := by
  unfold loop
  rw [h1, h2, h3, h4, h5, h6, rng_shift, rng_shift, rng_shift, map_prod_map, map_prod_map]

theorem mem_loop {b : Box} {x : Z3} : x ∈ loop b ↔ (b.ks ≤ x.1 ∧ x.1 ≤ b.ke) ∧ (b.js ≤ x.2.1 ∧ x.2.1 ≤ b.je) ∧ (b.is ≤ x.2.2 ∧ x.2.2 ≤ b.ie) := by
  unfold loop
  obtain ⟨k, j, i⟩ := x
  simp only [List.mem_product, mem_span]

theorem lookup_zip {α : Type*} [BEq α] [LawfulBEq α] {β : Type*} (L : List α) (f : α → β) (x : α) (h : x ∈ L) :
    (L.zip (L.map f)).lookup x = some (f x) := by
  induction L with
  | nil => simp at h
  | cons a L ih =>
    simp only [List.map_cons, List.zip_cons_cons, List.lookup_cons]
    by_cases e : x = a
    · subst e; simp
    · rw [show (x == a) = false by simpa using e]
      exact ih (by simpa [e] using h)

/-! ## Geometry -/

/-- Displacements from `GZ` indices to indices on the parent. -/
def tk (d : Fin 6) : ℤ := (o.src d).ks - (o.gz d).ks
def tj (d : Fin 6) : ℤ := (o.src d).js - (o.gz d).js
def ti (d : Fin 6) : ℤ := (o.src d).is - (o.gz d).is

variable {o}

theorem src_gz (h : o.Fits) (d : Fin 6) (hd : d.val < 2 * o.nDim) :
    (o.src d).ke = (o.gz d).ke + o.tk d ∧ (o.src d).je = (o.gz d).je + o.tj d ∧ (o.src d).ie = (o.gz d).ie + o.ti d := by
  obtain ⟨hdim, ⟨g, hg⟩, ci, fi, cj, fj, fj1, ck, fk, fk1⟩ := h
  unfold tk tj ti
  rcases hdim with e | e | e <;> fin_cases d <;>
    simp [src, gz, gid, e, hg] at hd fj fj1 fk fk1 ⊢ <;> omega

theorem loop_src (h : o.Fits) (d : Fin 6) (hd : d.val < 2 * o.nDim) :
    loop (o.src d) = (loop (o.gz d)).map fun x : Z3 => (x.1 + o.tk d, x.2.1 + o.tj d, x.2.2 + o.ti d) := by
  obtain ⟨a, b, c⟩ := src_gz h d hd
  refine loop_shift _ _ _ _ _ ?_ a ?_ b ?_ c <;> simp [tk, tj, ti]

/-- Along x3: index `n` of the loop over the ghost zones. -/
theorem geomK (h : o.Fits) (d : Fin 6) (hd : d.val < 2 * o.nDim) (n : ℕ) (hn : (n : ℤ) < ((o.dst d).ke - (o.dst d).ks) / 2 + 1) (l : ℤ)
    (l0 : 0 ≤ l) (l1 : l ≤ o.nend) :
    (if 2 < o.nDim then o.c.ks + ((o.dst d).ks + 2 * n + l - o.f.ks) / 2 else o.c.ks) = 1 + n + o.tk d ∧
    (if 2 < o.nDim then bit (((o.dst d).ks + 2 * n + l - o.f.ks) % 2) else 0) = bit l ∧
    (o.gz d).ks ≤ 1 + n ∧ 1 + (n : ℤ) ≤ (o.gz d).ke ∧ (2 < o.nDim → (o.gz d).ks ≤ n ∧ (n : ℤ) + 2 ≤ (o.gz d).ke) ∧ (¬ 2 < o.nDim → n = 0) := by
  obtain ⟨hdim, ⟨g, hg⟩, ci, fi, cj, fj, fj1, ck, fk, fk1⟩ := h
  have hb : ∀ t s : ℤ, t = s → bit t = bit s := fun t s e => by rw [e]
  have hb0 : ∀ t : ℤ, t = 0 → 0 = bit t := fun t e => by simp [bit, e]
  unfold tk
  rcases hdim with e | e | e <;> fin_cases d <;>
    simp [src, gz, dst, gid, nend, e, hg] at hd hn fj fj1 fk fk1 l1 ⊢ <;>
    refine ⟨by omega, ?_⟩ <;> first
      | exact ⟨hb0 _ (by omega), by omega⟩
      | exact ⟨hb _ _ (by omega), by omega⟩

theorem geomJ (h : o.Fits) (d : Fin 6) (hd : d.val < 2 * o.nDim) (n : ℕ) (hn : (n : ℤ) < ((o.dst d).je - (o.dst d).js) / 2 + 1) (l : ℤ)
    (l0 : 0 ≤ l) (l1 : l ≤ o.mend) :
    (if 1 < o.nDim then o.c.js + ((o.dst d).js + 2 * n + l - o.f.js) / 2 else o.c.js) = 1 + n + o.tj d ∧
    (if 1 < o.nDim then bit (((o.dst d).js + 2 * n + l - o.f.js) % 2) else 0) = bit l ∧
    (o.gz d).js ≤ 1 + n ∧ 1 + (n : ℤ) ≤ (o.gz d).je ∧ (1 < o.nDim → (o.gz d).js ≤ n ∧ (n : ℤ) + 2 ≤ (o.gz d).je) ∧ (¬ 1 < o.nDim → n = 0) := by
  obtain ⟨hdim, ⟨g, hg⟩, ci, fi, cj, fj, fj1, ck, fk, fk1⟩ := h
  have hb : ∀ t s : ℤ, t = s → bit t = bit s := fun t s e => by rw [e]
  have hb0 : ∀ t : ℤ, t = 0 → 0 = bit t := fun t e => by simp [bit, e]
  unfold tj
  rcases hdim with e | e | e <;> fin_cases d <;>
    simp [src, gz, dst, gid, mend, e, hg] at hd hn fj fj1 fk fk1 l1 ⊢ <;>
    refine ⟨by omega, ?_⟩ <;> first
      | exact ⟨hb0 _ (by omega), by omega⟩
      | exact ⟨hb _ _ (by omega), by omega⟩

theorem geomI (h : o.Fits) (d : Fin 6) (hd : d.val < 2 * o.nDim) (n : ℕ) (hn : (n : ℤ) < ((o.dst d).ie - (o.dst d).is) / 2 + 1) (l : ℤ)
    (l0 : 0 ≤ l) (l1 : l ≤ 1) :
    o.c.is + ((o.dst d).is + 2 * n + l - o.f.is) / 2 = 1 + n + o.ti d ∧
    bit (((o.dst d).is + 2 * n + l - o.f.is) % 2) = bit l ∧
    (o.gz d).is ≤ n ∧ (n : ℤ) + 2 ≤ (o.gz d).ie := by
  obtain ⟨hdim, ⟨g, hg⟩, ci, fi, cj, fj, fj1, ck, fk, fk1⟩ := h
  have hb : ∀ t s : ℤ, t = s → bit t = bit s := fun t s e => by rw [e]
  unfold ti
  rcases hdim with e | e | e <;> fin_cases d <;>
    simp [src, gz, dst, gid, e, hg] at hd hn fj fj1 fk fk1 l1 ⊢ <;>
    exact ⟨by omega, hb _ _ (by omega), by omega⟩

theorem line (a b e y : ℤ) (h : (e = 1 ∧ a ≤ b + 1 ∧ (b - a) % 2 = 1) ∨ (e = 0 ∧ a = b)) :
    (∃ n : ℕ, (n : ℤ) < (b - a) / 2 + 1 ∧ a + 2 * n ≤ y ∧ y ≤ a + 2 * n + e) ↔ a ≤ y ∧ y ≤ b := by
  constructor
  · rintro ⟨n, hn, p, q⟩; omega
  · rintro ⟨p, q⟩; exact ⟨((y - a) / 2).toNat, by omega, by omega, by omega⟩

theorem dst_line (h : o.Fits) (d : Fin 6) (hd : d.val < 2 * o.nDim) :
    ((o.nend = 1 ∧ (o.dst d).ks ≤ (o.dst d).ke + 1 ∧ ((o.dst d).ke - (o.dst d).ks) % 2 = 1) ∨ (o.nend = 0 ∧ (o.dst d).ks = (o.dst d).ke)) ∧
    ((o.mend = 1 ∧ (o.dst d).js ≤ (o.dst d).je + 1 ∧ ((o.dst d).je - (o.dst d).js) % 2 = 1) ∨ (o.mend = 0 ∧ (o.dst d).js = (o.dst d).je)) ∧
    (((1 : ℤ) = 1 ∧ (o.dst d).is ≤ (o.dst d).ie + 1 ∧ ((o.dst d).ie - (o.dst d).is) % 2 = 1) ∨ ((1 : ℤ) = 0 ∧ (o.dst d).is = (o.dst d).ie)) := by
  obtain ⟨hdim, ⟨g, hg⟩, ci, fi, cj, fj, fj1, ck, fk, fk1⟩ := h
  rcases hdim with e | e | e <;> fin_cases d <;>
    simp [dst, nend, mend, e, hg] at hd fj fj1 fk fk1 ⊢ <;> omega

/-- The zones set for boundary `d` are the ghost zones beyond it. -/
theorem covered (h : o.Fits) (d : Fin 6) (hd : d.val < 2 * o.nDim) (x : Z3) :
    (∃ p ∈ o.blocks d, o.inBlock p.1.1 p.2.1.1 p.2.2.1 x) ↔ o.near x ∧ o.beyond d x := by
  have key : (∃ p ∈ o.blocks d, o.inBlock p.1.1 p.2.1.1 p.2.2.1 x) ↔
      ((∃ n : ℕ, (n : ℤ) < ((o.dst d).ke - (o.dst d).ks) / 2 + 1 ∧ (o.dst d).ks + 2 * n ≤ x.1 ∧ x.1 ≤ (o.dst d).ks + 2 * n + o.nend) ∧
       (∃ n : ℕ, (n : ℤ) < ((o.dst d).je - (o.dst d).js) / 2 + 1 ∧ (o.dst d).js + 2 * n ≤ x.2.1 ∧ x.2.1 ≤ (o.dst d).js + 2 * n + o.mend) ∧
       (∃ n : ℕ, (n : ℤ) < ((o.dst d).ie - (o.dst d).is) / 2 + 1 ∧ (o.dst d).is + 2 * n ≤ x.2.2 ∧ x.2.2 ≤ (o.dst d).is + 2 * n + 1)) := by
    constructor
    · rintro ⟨⟨a, b, c⟩, hp, hx⟩
      simp only [blocks, List.mem_product, mem_pairs] at hp
      obtain ⟨⟨n1, h1, rfl⟩, ⟨n2, h2, rfl⟩, n3, h3, rfl⟩ := hp
      obtain ⟨x1, x2, x3⟩ := hx
      exact ⟨⟨n1, h1, x1⟩, ⟨n2, h2, x2⟩, n3, h3, x3⟩
    · rintro ⟨⟨n1, h1, x1⟩, ⟨n2, h2, x2⟩, n3, h3, x3⟩
      refine ⟨(((o.dst d).ks + 2 * n1, 1 + n1), ((o.dst d).js + 2 * n2, 1 + n2), ((o.dst d).is + 2 * n3, 1 + n3)), ?_, x1, x2, x3⟩
      simp only [blocks, List.mem_product, mem_pairs]
      exact ⟨⟨n1, h1, rfl⟩, ⟨n2, h2, rfl⟩, n3, h3, rfl⟩
  rw [key, line _ _ _ _ (dst_line h d hd).1, line _ _ _ _ (dst_line h d hd).2.1, line _ _ _ _ (dst_line h d hd).2.2]
  clear key
  obtain ⟨hdim, ⟨g, hg⟩, ci, fi, cj, fj, fj1, ck, fk, fk1⟩ := h
  rcases hdim with e | e | e <;> fin_cases d <;>
    simp [dst, near, beyond, e, hg] at hd fj fj1 fk fk1 ⊢ <;> omega

/-! ## What is loaded -/

/-- `GZ[id]` after loading and copying holds the zones of the parent. -/
theorem loaded (h : o.Fits) (d : Fin 6) (hd : d.val < 2 * o.nDim) (P : PGrd R ns) (G : Z3 → Cell R ns) (x : Z3) (hx : x ∈ loop (o.gz d)) :
    load G (loop (o.gz d)) (o.send1 P d) x =
      P.cell (x.1 + o.tk d, x.2.1 + o.tj d, x.2.2 + o.ti d) := by
  unfold load send1
  rw [loop_src h d hd, List.map_map, lookup_zip _ _ _ hx]
  rfl

/-- The stencil of `ProCon` in `GZ[id]`, in the directions of the problem. -/
theorem stencil' (h : o.Fits) (d : Fin 6) (hd : d.val < 2 * o.nDim) (P : PGrd R ns) (G : Z3 → Cell R ns) {kk jj ii : ℤ} (a b c : ℤ)
    (hk : if 2 < o.nDim then (o.gz d).ks ≤ kk + a ∧ kk + a ≤ (o.gz d).ke else kk = 1 ∧ -1 ≤ a ∧ a ≤ 1)
    (hj : if 1 < o.nDim then (o.gz d).js ≤ jj + b ∧ jj + b ≤ (o.gz d).je else jj = 1 ∧ -1 ≤ b ∧ b ≤ 1)
    (hi : (o.gz d).is ≤ ii + c ∧ ii + c ≤ (o.gz d).ie) (hab : ¬ 1 < o.nDim → a = 0 ∨ b = 0) :
    o.copies (o.gz d) (load G (loop (o.gz d)) (o.send1 P d)) (kk + a, jj + b, ii + c) =
      P.cell (o.disp (kk + o.tk d, jj + o.tj d, ii + o.ti d) a b c) := by
  have e : ∀ p q r p' q' r' : ℤ, p = p' → q = q' → r = r' → P.cell (p, q, r) = P.cell (p', q', r') := by
    rintro _ _ _ _ _ _ rfl rfl rfl; rfl
  have hz : (2 < o.nDim → True) ∧ (¬ 2 < o.nDim → (o.gz d).ks = 1 ∧ (o.gz d).ke = 1) ∧ (¬ 1 < o.nDim → (o.gz d).js = 1 ∧ (o.gz d).je = 1) := by
    refine ⟨fun _ => trivial, fun q => ?_, fun q => ?_⟩ <;> simp [gz, q]
  unfold copies
  rcases h.dim with e1 | e1 | e1
  · simp only [e1, show ¬ 2 < 1 by omega, show ¬ 1 < 1 by omega, if_false, not_false_eq_true, true_imp_iff] at hk hj hz hab
    by_cases h0 : a = 0 ∧ b = 0
    · obtain ⟨rfl, rfl⟩ := h0
      rw [if_neg (by simp only [hk.1, hj.1]; omega), if_neg (by omega), loaded h d hd P G _ (mem_loop.2 (by dsimp only; omega))]
      simp only [disp, e1, show ¬ 2 < 1 by omega, show ¬ 1 < 1 by omega, if_false]
      exact e _ _ _ _ _ _ (by omega) (by omega) (by omega)
    · rw [if_pos (by dsimp only; omega), loaded h d hd P G _ (mem_loop.2 (by dsimp only; omega))]
      simp only [disp, e1, show ¬ 2 < 1 by omega, show ¬ 1 < 1 by omega, if_false]
      exact e _ _ _ _ _ _ (by omega) (by omega) (by omega)
  · simp only [e1, show ¬ 2 < 2 by omega, show 1 < 2 by omega, if_false, if_true, not_false_eq_true, true_imp_iff] at hk hj hz
    rw [if_neg (by omega)]
    by_cases h0 : a = 0
    · subst h0
      rw [if_neg (by dsimp only; omega), loaded h d hd P G _ (mem_loop.2 (by dsimp only; omega))]
      simp only [disp, e1, show ¬ 2 < 2 by omega, show 1 < 2 by omega, if_false, if_true]
      exact e _ _ _ _ _ _ (by omega) (by omega) (by omega)
    · rw [if_pos (by dsimp only; omega), loaded h d hd P G _ (mem_loop.2 (by dsimp only; omega))]
      simp only [disp, e1, show ¬ 2 < 2 by omega, show 1 < 2 by omega, if_false, if_true]
      exact e _ _ _ _ _ _ (by omega) (by omega) (by omega)
  · simp only [e1, show 2 < 3 by omega, show 1 < 3 by omega, if_true] at hk hj
    rw [if_neg (by omega), if_neg (by omega), loaded h d hd P G _ (mem_loop.2 (by dsimp only; omega))]
    simp only [disp, e1, show 2 < 3 by omega, show 1 < 3 by omega, if_true]
    exact e _ _ _ _ _ _ (by omega) (by omega) (by omega)

theorem stencil (h : o.Fits) (d : Fin 6) (hd : d.val < 2 * o.nDim) (P : PGrd R ns) (G : Z3 → Cell R ns) {kk jj ii : ℤ} (a b c : ℤ)
    (hk : if 2 < o.nDim then (o.gz d).ks ≤ kk + a ∧ kk + a ≤ (o.gz d).ke else kk = 1 ∧ -1 ≤ a ∧ a ≤ 1)
    (hj : if 1 < o.nDim then (o.gz d).js ≤ jj + b ∧ jj + b ≤ (o.gz d).je else jj = 1 ∧ -1 ≤ b ∧ b ≤ 1)
    (hi : (o.gz d).is ≤ ii + c ∧ ii + c ≤ (o.gz d).ie) (hab : ¬ 1 < o.nDim → a = 0 ∨ b = 0) :
    (o.copies (o.gz d) (load G (loop (o.gz d)) (o.send1 P d)) (kk + a, jj + b, ii + c)).u =
      o.nb P (kk + o.tk d, jj + o.tj d, ii + o.ti d) a b c := by
  rw [stencil' h d hd P G a b c hk hj hi hab]; rfl

/-! ## What is written -/

theorem fluid_body (bad : ConsS R ns → Bool) (G : Z3 → Cell R ns) (d : Fin 6) (B : PGrd R ns) (p : (ℤ × ℤ) × (ℤ × ℤ) × (ℤ × ℤ)) (x : Z3) :
    o.fluid ((o.body bad G d B p).U x) = o.fluid (o.setCons bad G p B.U x) := by
  unfold body
  dsimp only
  by_cases hm : o.cf.mhd = true
  · rw [if_pos hm]
    unfold setFld
    dsimp only
    by_cases h1 : o.nDim = 1
    · rw [if_pos h1]
    · rw [if_neg h1]
      dsimp only
      by_cases hb : o.inBlock p.1.1 p.2.1.1 p.2.2.1 x
      · rw [if_pos hb]; simp [fluid, hm]
      · rw [if_neg hb]
  · rw [if_neg hm]

theorem fold_fluid (bad : ConsS R ns → Bool) (G : Z3 → Cell R ns) (d : Fin 6) (E : Z3 → ConsS R ns) (x : Z3)
    (l : List ((ℤ × ℤ) × (ℤ × ℤ) × (ℤ × ℤ)))
    (hv : ∀ p ∈ l, ∀ U, o.inBlock p.1.1 p.2.1.1 p.2.2.1 x → o.setCons bad G p U x = E x) (B : PGrd R ns) :
    o.fluid ((l.foldl (o.body bad G d) B).U x) =
      if ∃ p ∈ l, o.inBlock p.1.1 p.2.1.1 p.2.2.1 x then o.fluid (E x) else o.fluid (B.U x) := by
  induction l generalizing B with
  | nil => simp
  | cons p l ih =>
    rw [List.foldl_cons, ih (fun q hq => hv q (List.mem_cons_of_mem _ hq)), fluid_body]
    by_cases hb : o.inBlock p.1.1 p.2.1.1 p.2.2.1 x
    · rw [hv p List.mem_cons_self _ hb, if_pos (⟨p, List.mem_cons_self, hb⟩ : ∃ p' ∈ p :: l, o.inBlock p'.1.1 p'.2.1.1 p'.2.2.1 x)]
      split_ifs <;> rfl
    · have : o.setCons bad G p B.U x = B.U x := by unfold setCons; simp only [if_neg hb]
      rw [this]
      have e : (∃ p' ∈ p :: l, o.inBlock p'.1.1 p'.2.1.1 p'.2.2.1 x) ↔ ∃ p' ∈ l, o.inBlock p'.1.1 p'.2.1.1 p'.2.2.1 x := by
        simp [hb]
      simp only [e]

/-- The block of a zone, and the indices of `GZ` that go with it. -/
theorem block_of (h : o.Fits) (d : Fin 6) (hd : d.val < 2 * o.nDim) (x : Z3) (p : (ℤ × ℤ) × (ℤ × ℤ) × (ℤ × ℤ)) (hp : p ∈ o.blocks d)
    (hx : o.inBlock p.1.1 p.2.1.1 p.2.2.1 x) :
    o.coarseOf x = (p.1.2 + o.tk d, p.2.1.2 + o.tj d, p.2.2.2 + o.ti d) ∧
    o.half x = (bit (x.1 - p.1.1), bit (x.2.1 - p.2.1.1), bit (x.2.2 - p.2.2.1)) ∧
    (if 2 < o.nDim then (o.gz d).ks ≤ p.1.2 - 1 ∧ p.1.2 + 1 ≤ (o.gz d).ke else p.1.2 = 1) ∧
    (if 1 < o.nDim then (o.gz d).js ≤ p.2.1.2 - 1 ∧ p.2.1.2 + 1 ≤ (o.gz d).je else p.2.1.2 = 1) ∧
    ((o.gz d).is ≤ p.2.2.2 - 1 ∧ p.2.2.2 + 1 ≤ (o.gz d).ie) := by
  obtain ⟨a, b, c⟩ := p
  simp only [blocks, List.mem_product, mem_pairs] at hp
  obtain ⟨⟨n1, h1, rfl⟩, ⟨n2, h2, rfl⟩, n3, h3, rfl⟩ := hp
  obtain ⟨x1, x2, x3⟩ := hx
  dsimp only at x1 x2 x3
  obtain ⟨k1, k2, k3, k4, k5, k6⟩ := geomK h d hd n1 h1 (x.1 - ((o.dst d).ks + 2 * n1)) (by omega) (by omega)
  obtain ⟨j1, j2, j3, j4, j5, j6⟩ := geomJ h d hd n2 h2 (x.2.1 - ((o.dst d).js + 2 * n2)) (by omega) (by omega)
  obtain ⟨i1, i2, i3, i4⟩ := geomI h d hd n3 h3 (x.2.2 - ((o.dst d).is + 2 * n3)) (by omega) (by omega)
  rw [add_sub_cancel] at k1 k2 j1 j2 i1 i2
  refine ⟨?_, ?_, ?_, ?_, ?_⟩
  · unfold coarseOf; rw [k1, j1, i1]
  · unfold half; rw [k2, j2, i2]
  · dsimp only
    split_ifs with hq
    · have := k5 hq; omega
    · have := k6 hq; omega
  · dsimp only
    split_ifs with hq
    · have := j5 hq; omega
    · have := j6 hq; omega
  · dsimp only; omega

theorem value (h : o.Fits) (d : Fin 6) (hd : d.val < 2 * o.nDim) (bad : ConsS R ns → Bool) (P : PGrd R ns) (G : Z3 → Cell R ns) (x : Z3)
    (p : (ℤ × ℤ) × (ℤ × ℤ) × (ℤ × ℤ)) (hp : p ∈ o.blocks d) (U : Z3 → ConsS R ns) (hx : o.inBlock p.1.1 p.2.1.1 p.2.2.1 x) :
    o.setCons bad (o.copies (o.gz d) (load G (loop (o.gz d)) (o.send1 P d))) p U x = o.interp bad P x := by
  obtain ⟨hc, hh, gk, gj, gi⟩ := block_of h d hd x p hp hx
  have st : ∀ a b c : ℤ, (a, b, c) ∈ ([(0,0,-1), (0,0,0), (0,0,1), (0,-1,0), (0,1,0), (-1,0,0), (1,0,0)] : List (ℤ × ℤ × ℤ)) →
      (o.copies (o.gz d) (load G (loop (o.gz d)) (o.send1 P d)) (p.1.2 + a, p.2.1.2 + b, p.2.2.2 + c)).u =
        o.nb P (o.coarseOf x) a b c := by
    intro a b c hm
    rw [hc]
    simp only [List.mem_cons, Prod.mk.injEq, List.not_mem_nil, or_false] at hm
    apply stencil h d hd P G a b c
    · split_ifs at gk ⊢ <;> omega
    · split_ifs at gj ⊢ <;> omega
    · omega
    · intro _; omega
  unfold setCons interp
  dsimp only
  rw [if_pos hx, hh]
  dsimp only
  rw [← st 0 0 (-1) (by simp), ← st 0 0 0 (by simp), ← st 0 0 1 (by simp), ← st 0 (-1) 0 (by simp), ← st 0 1 0 (by simp),
    ← st (-1) 0 0 (by simp), ← st 1 0 0 (by simp)]
  simp only [add_zero, sub_eq_add_neg]

theorem recv_fold (h : o.Fits) (bad : ConsS R ns → Bool) (P : PGrd R ns) (x : Z3) (l : List (Fin 6)) (hl : ∀ d ∈ l, d.val < 2 * o.nDim) (s : Rcv R ns)
    (hs : s.rest = l.flatMap (o.send1 P)) :
    o.fluid ((l.foldl (o.recv1 bad) s).B.U x) =
      if ∃ d ∈ l, o.near x ∧ o.beyond d x then o.fluid (o.interp bad P x) else o.fluid (s.B.U x) := by
  induction l generalizing s with
  | nil => simp
  | cons d l ih =>
    have hd := hl d List.mem_cons_self
    have hlen : (o.send1 P d).length = (loop (o.gz d)).length := by
      unfold send1; rw [List.length_map, loop_src h d hd, List.length_map]
    rw [List.flatMap_cons] at hs
    have ht : s.rest.take (loop (o.gz d)).length = o.send1 P d := by rw [hs]; exact List.take_left' hlen
    have hr : s.rest.drop (loop (o.gz d)).length = l.flatMap (o.send1 P) := by rw [hs]; exact List.drop_left' hlen
    rw [List.foldl_cons, ih (fun e he => hl e (List.mem_cons_of_mem _ he)) (o.recv1 bad s d) hr]
    have hB : o.fluid ((o.recv1 bad s d).B.U x) = if o.near x ∧ o.beyond d x then o.fluid (o.interp bad P x) else o.fluid (s.B.U x) := by
      unfold recv1
      dsimp only
      rw [ht, fold_fluid bad _ d (o.interp bad P) x (o.blocks d) (fun p hp U hb => value h d hd bad P _ x p hp U hb)]
      simp only [covered h d hd x]
    rw [hB]
    by_cases hb : o.near x ∧ o.beyond d x
    · rw [if_pos hb, if_pos (⟨d, List.mem_cons_self, hb⟩ : ∃ e ∈ d :: l, o.near x ∧ o.beyond e x)]
      split_ifs <;> rfl
    · rw [if_neg hb]
      have e : (∃ e ∈ d :: l, o.near x ∧ o.beyond e x) ↔ ∃ e ∈ l, o.near x ∧ o.beyond e x := by
        simp only [List.mem_cons, exists_eq_or_imp, hb, false_or]
      simp only [e]

/-! ## Theorems -/

/-- **C116.**  After prolongation every ghost zone beyond a boundary between levels, edges and corners included, holds the interpolation (C30) of the
zone of the parent that contains it, and every other zone, in particular every active zone, holds what it held, whatever the arrays `GZ` held
before.  With MHD this is about all members but the field.  (`nghost` even; see `prolongate_odd_false`.) -/
theorem prolongate_ghosts (h : o.Fits) (bad : ConsS R ns → Bool) (G : Fin 3 → Z3 → Cell R ns) (P C : PGrd R ns) (x : Z3) :
    o.fluid ((o.prolongate bad G P C).U x) = if o.Ghost x then o.fluid (o.interp bad P x) else o.fluid (C.U x) := by
  unfold prolongate
  have hm : ∀ d, d ∈ o.dims ↔ d.val < 2 * o.nDim ∧ o.flx d = true := by
    intro d; simp [dims, List.mem_filter]
  rw [recv_fold h bad P x o.dims (fun d hd => ((hm d).1 hd).1) ⟨C, G, o.send P⟩ rfl]
  have e : (∃ d ∈ o.dims, o.near x ∧ o.beyond d x) ↔ o.Ghost x := by
    unfold Ghost
    constructor
    · rintro ⟨d, hd, h1, h2⟩; exact ⟨h1, d, ((hm d).1 hd).1, ((hm d).1 hd).2, h2⟩
    · rintro ⟨h1, d, hd, hf, h2⟩; exact ⟨d, (hm d).2 ⟨hd, hf⟩, h1, h2⟩
  simp only [e]

section cor
variable [IsStrictOrderedRing R]

/-- The quantities that `prolongate_ghosts` is about: all but the field, with MHD. -/
def Plain (o : Ovl R) (v : Sel ns) : Prop := o.cf.mhd = true → v ≠ .b1 ∧ v ≠ .b2 ∧ v ≠ .b3

omit [IsStrictOrderedRing R] in
theorem get_fluid {v : Sel ns} (hv : Plain o v) (u : ConsS R ns) : v.get (o.fluid u) = v.get u := by
  unfold fluid
  split_ifs with h
  · have := hv h
    cases v <;> simp_all [Sel.get]
  · rfl

omit [IsStrictOrderedRing R] in
theorem get_ghost (h : o.Fits) (bad : ConsS R ns → Bool) (G : Fin 3 → Z3 → Cell R ns) (P C : PGrd R ns) (x : Z3) (hx : o.Ghost x) {v : Sel ns} (hv : Plain o v) :
    v.get ((o.prolongate bad G P C).U x) = v.get (o.interp bad P x) := by
  have := prolongate_ghosts h bad G P C x
  rw [if_pos hx] at this
  rw [← get_fluid hv, this, get_fluid hv]

/-- The zones of the child in the zone `y` of the parent. -/
def fineOf (o : Ovl R) (y : Z3) (n m l : Fin 2) : Z3 :=
  (if 2 < o.nDim then o.f.ks + 2 * (y.1 - o.c.ks) + (n.val : ℤ) else o.f.ks,
   if 1 < o.nDim then o.f.js + 2 * (y.2.1 - o.c.js) + (m.val : ℤ) else o.f.js,
   o.f.is + 2 * (y.2.2 - o.c.is) + (l.val : ℤ))

omit [IsStrictOrderedRing R] in
theorem coarse_fine (y : Z3) (hy : (2 < o.nDim ∨ y.1 = o.c.ks) ∧ (1 < o.nDim ∨ y.2.1 = o.c.js)) (n m l : Fin 2) :
    o.coarseOf (o.fineOf y n m l) = y ∧
    o.half (o.fineOf y n m l) = (if 2 < o.nDim then n else 0, if 1 < o.nDim then m else 0, l) := by
  have hb : ∀ (t : ℤ) (q : Fin 2), (o.f.ks + 2 * t + (q.val : ℤ) - o.f.ks) / 2 = t ∧ (o.f.js + 2 * t + (q.val : ℤ) - o.f.js) / 2 = t ∧
      (o.f.is + 2 * t + (q.val : ℤ) - o.f.is) / 2 = t := by
    intro t q; omega
  have hq : ∀ (t : ℤ) (q : Fin 2) (s : ℤ), bit ((s + 2 * t + (q.val : ℤ) - s) % 2) = q := by
    intro t q s
    have : (s + 2 * t + (q.val : ℤ) - s) % 2 = (q.val : ℤ) := by omega
    rw [this]
    fin_cases q <;> simp [bit]
  obtain ⟨h1, h2⟩ := hy
  obtain ⟨y1, y2, y3⟩ := y
  constructor
  · simp only [coarseOf, fineOf, Prod.mk.injEq]
    refine ⟨?_, ?_, by rw [(hb _ _).2.2]; omega⟩
    · split_ifs with q
      · rw [(hb _ _).1]; omega
      · rcases h1 with h1 | h1; exacts [absurd h1 q, h1.symm]
    · split_ifs with q
      · rw [(hb _ _).2.1]; omega
      · rcases h2 with h2 | h2; exacts [absurd h2 q, h2.symm]
  · simp only [half, fineOf, Prod.mk.injEq]
    refine ⟨?_, ?_, hq _ _ _⟩
    · split_ifs
      · exact hq _ _ _
      · rfl
    · split_ifs
      · exact hq _ _ _
      · rfl

/-- **C116, conservation.**  The ghost zones of the child that make up a zone of the parent average to it: density, momenta, scalars. -/
theorem prolongate_averages (h : o.Fits) (bad : ConsS R ns → Bool) (G : Fin 3 → Z3 → Cell R ns) (P C : PGrd R ns) (y : Z3)
    (hy : (2 < o.nDim ∨ y.1 = o.c.ks) ∧ (1 < o.nDim ∨ y.2.1 = o.c.js)) (hg : ∀ n m l, o.Ghost (o.fineOf y n m l)) (v : Sel ns) (hv : Plain o v) :
    AvgIs (fun n m l => v.get ((o.prolongate bad G P C).U (o.fineOf y n m l))) (v.get (P.U y)) := by
  have e : ∀ n m l, v.get ((o.prolongate bad G P C).U (o.fineOf y n m l)) =
      v.get (proCon o.cf bad (o.nb P y 0 0 (-1)) (o.nb P y 0 0 0) (o.nb P y 0 0 1) (o.nb P y 0 (-1) 0) (o.nb P y 0 1 0) (o.nb P y (-1) 0 0) (o.nb P y 1 0 0)
        (if 2 < o.nDim then n else 0) (if 1 < o.nDim then m else 0) l) := by
    intro n m l
    rw [get_ghost h bad G P C _ (hg n m l) hv]
    unfold interp
    rw [(coarse_fine y hy n m l).1, (coarse_fine y hy n m l).2]
  simp only [e]
  have e0 : o.nb P y 0 0 0 = P.U y := by simp [nb, disp]
  rcases h.dim with d | d | d
  · have ea : ∀ a, o.nb P y a 0 0 = P.U y := by intro a; simp [nb, disp, d]
    have eb : ∀ b, o.nb P y 0 b 0 = P.U y := by intro b; simp [nb, disp, d]
    simp only [ea, eb, d, show ¬ 2 < 1 by omega, show ¬ 1 < 1 by omega, if_false]
    have := (proCon_conserves_2d1d o.cf bad (o.nb P y 0 0 (-1)) (P.U y) (o.nb P y 0 0 1) (P.U y) (P.U y) v 0 0).2
    dsimp only at this
    unfold AvgIs
    linear_combination this
  · have ea : ∀ a, o.nb P y a 0 0 = P.U y := by intro a; simp [nb, disp, d]
    simp only [ea, d, show ¬ 2 < 2 by omega, show 1 < 2 by omega, if_false, if_true]
    have := (proCon_conserves_2d1d o.cf bad (o.nb P y 0 0 (-1)) (P.U y) (o.nb P y 0 0 1) (o.nb P y 0 (-1) 0) (o.nb P y 0 1 0) v 0 0).1
    dsimp only at this
    unfold AvgIs
    linear_combination this
  · simp only [d, show 2 < 3 by omega, show 1 < 3 by omega, if_true, e0]
    exact proCon_conserves o.cf bad _ _ _ _ _ _ _ v

/-- **C116, uniform states.**  Where the parent is uniform the ghost zones get its state. -/
theorem prolongate_uniform (h : o.Fits) (bad : ConsS R ns → Bool) (G : Fin 3 → Z3 → Cell R ns) (P C : PGrd R ns) (u : ConsS R ns) (t : R)
    (hd : u.d ≠ 0) (he : u.e = some t) (hu : ∀ y, P.U y = u) (x : Z3) (hx : o.Ghost x) : o.fluid ((o.prolongate bad G P C).U x) = o.fluid u := by
  rw [prolongate_ghosts h, if_pos hx]
  congr 1
  unfold interp nb
  simp only [hu]
  exact proCon_uniform o.cf bad u hd t he _ _ _

/-- The position of the centre of zone `x` of the child, in units of zones of the parent. -/
def pos (o : Ovl R) (x : Z3) : R × R × R :=
  (if 2 < o.nDim then (o.c.ks : R) + (((x.1 - o.f.ks : ℤ) : R) + 1/2) / 2 - 1/2 else (o.c.ks : R),
   if 1 < o.nDim then (o.c.js : R) + (((x.2.1 - o.f.js : ℤ) : R) + 1/2) / 2 - 1/2 else (o.c.js : R),
   (o.c.is : R) + (((x.2.2 - o.f.is : ℤ) : R) + 1/2) / 2 - 1/2)

theorem axis (a c : R) (cs fs x : ℤ) : c + a * ((cs + (x - fs) / 2 : ℤ) : R) + off (bit ((x - fs) % 2)) * a =
    c + a * ((cs : R) + (((x - fs : ℤ) : R) + 1/2) / 2 - 1/2) := by
  have h : (x - fs) = 2 * ((x - fs) / 2) + (x - fs) % 2 := by omega
  generalize ht : (x - fs) / 2 = t at *
  rcases (by omega : (x - fs) % 2 = 0 ∨ (x - fs) % 2 = 1) with e | e
  · rw [e] at h ⊢
    rw [h]
    simp only [bit, if_true, off_zero]
    push_cast
    ring
  · rw [e] at h ⊢
    rw [h]
    simp only [bit, one_ne_zero, if_false, off_one]
    push_cast
    ring

/-- **C116, second order.**  A quantity that is linear in the position on the parent is linear in the ghost zones, with the same values. -/
theorem prolongate_linear (h : o.Fits) (h1 : o.cf.firstOrder = false) (h2 : o.cf.sr = false) (bad : ConsS R ns → Bool) (G : Fin 3 → Z3 → Cell R ns)
    (P C : PGrd R ns) (v : Sel ns) (hv : Plain o v) (c ak aj ai : R)
    (hl : ∀ y : Z3, v.get (P.U y) = c + ak * (y.1 : R) + aj * (y.2.1 : R) + ai * (y.2.2 : R)) (x : Z3) (hx : o.Ghost x) :
    v.get ((o.prolongate bad G P C).U x) = c + ak * (o.pos x).1 + aj * (o.pos x).2.1 + ai * (o.pos x).2.2 := by
  rw [get_ghost h bad G P C x hx hv]
  have hp : ∀ a c b d e f g : ConsS R ns, ∀ k j i, v.get (proCon o.cf bad a c b d e f g k j i) =
      proVar o.cf (v.get a) (v.get c) (v.get b) (v.get d) (v.get e) (v.get f) (v.get g) k j i := by
    intro a c b d e f g k j i
    rw [proCon_energy o.cf h2 h1]
    cases v <;> rfl
  have hs : ∀ c q : R, slope o.cf (c - q) c (c + q) = q := by
    intro c q; unfold slope; rw [if_neg (by simp [h1])]; exact mcdSlope_linear c q
  unfold interp
  rw [hp]
  have hn : ∀ a b d : ℤ, v.get (o.nb P (o.coarseOf x) a b d) = v.get (o.nb P (o.coarseOf x) 0 0 0) +
      (if 2 < o.nDim then ak * (a : R) else 0) + (if 1 < o.nDim then aj * (b : R) else 0) + ai * (d : R) := by
    intro a b d
    unfold nb disp
    rw [hl, hl]
    split_ifs <;> push_cast <;> ring
  have h0 : v.get (o.nb P (o.coarseOf x) 0 0 0) = c + ak * ((o.coarseOf x).1 : R) + aj * ((o.coarseOf x).2.1 : R) + ai * ((o.coarseOf x).2.2 : R) := by
    unfold nb disp; rw [hl]; simp
  rw [hn 0 0 (-1), hn 0 0 1, hn 0 (-1) 0, hn 0 1 0, hn (-1) 0 0, hn 1 0 0]
  generalize v.get (o.nb P (o.coarseOf x) 0 0 0) = q at *
  have s1 := hs q ai
  have s2 := hs q (if 1 < o.nDim then aj else 0)
  have s3 := hs q (if 2 < o.nDim then ak else 0)
  have e1 : proVar o.cf (q + (if 2 < o.nDim then ak * ((0 : ℤ) : R) else 0) + (if 1 < o.nDim then aj * ((0 : ℤ) : R) else 0) + ai * ((-1 : ℤ) : R)) q
      (q + (if 2 < o.nDim then ak * ((0 : ℤ) : R) else 0) + (if 1 < o.nDim then aj * ((0 : ℤ) : R) else 0) + ai * ((1 : ℤ) : R))
      (q + (if 2 < o.nDim then ak * ((0 : ℤ) : R) else 0) + (if 1 < o.nDim then aj * ((-1 : ℤ) : R) else 0) + ai * ((0 : ℤ) : R))
      (q + (if 2 < o.nDim then ak * ((0 : ℤ) : R) else 0) + (if 1 < o.nDim then aj * ((1 : ℤ) : R) else 0) + ai * ((0 : ℤ) : R))
      (q + (if 2 < o.nDim then ak * ((-1 : ℤ) : R) else 0) + (if 1 < o.nDim then aj * ((0 : ℤ) : R) else 0) + ai * ((0 : ℤ) : R))
      (q + (if 2 < o.nDim then ak * ((1 : ℤ) : R) else 0) + (if 1 < o.nDim then aj * ((0 : ℤ) : R) else 0) + ai * ((0 : ℤ) : R))
      (o.half x).1 (o.half x).2.1 (o.half x).2.2 =
      q + off (o.half x).2.2 * ai + off (o.half x).2.1 * (if 1 < o.nDim then aj else 0) + off (o.half x).1 * (if 2 < o.nDim then ak else 0) := by
    unfold proVar
    have t1 : ∀ (p : Prop) [Decidable p] (a b : R), (if p then a * ((-1 : ℤ) : R) else 0) = -(if p then a else 0) := by
      intro p _ a b; split_ifs <;> simp
    have t2 : ∀ (p : Prop) [Decidable p] (a : R), (if p then a * ((1 : ℤ) : R) else 0) = (if p then a else 0) := by
      intro p _ a; split_ifs <;> simp
    have t3 : ∀ (p : Prop) [Decidable p] (a : R), (if p then a * ((0 : ℤ) : R) else 0) = 0 := by
      intro p _ a; split_ifs <;> simp
    rw [t1 _ _ 0, t1 _ _ 0, t2, t2, t3, t3]
    simp only [Int.cast_zero, Int.cast_neg, Int.cast_one, mul_zero, add_zero, mul_neg, mul_one, ← sub_eq_add_neg]
    rw [s1, s2, s3]
  rw [e1, h0]
  have x1 := axis ai 0 o.c.is o.f.is x.2.2
  have x2 := axis aj 0 o.c.js o.f.js x.2.1
  have x3 := axis ak 0 o.c.ks o.f.ks x.1
  unfold coarseOf half pos
  dsimp only
  split_ifs <;> first
    | linear_combination x1 + x2 + x3
    | linear_combination x1 + x2
    | linear_combination x1 + x3
    | linear_combination x1

end cor

/-! ## Witnesses -/

/-- A state at rest of density and energy `ρ`, scalars 0. -/
def atRest (ρ : ℚ) : ConsS ℚ 0 := ⟨ρ, 0, 0, 0, some ρ, 0, 0, 0, fun n => n.elim0⟩

/-- A Grid at rest with the given density. -/
def gridOf (ρ : Z3 → ℚ) : PGrd ℚ 0 := ⟨fun x => atRest (ρ x), fun _ => 0, fun _ => 0, fun _ => 0⟩

/-- A 1D overlap of two zones of the parent, with the lower boundary between levels. -/
def line1d (ng : ℕ) : Ovl ℚ :=
  { ng := ng, nDim := 1, flx := fun d => d = 0, c := ⟨0, 0, 0, 0, 10, 11⟩, f := ⟨0, 0, 0, 0, 0, 3⟩, cf := ⟨false, false, false⟩, dx1 := 1, dx2 := 1, dx3 := 1 }

/-- **Finding.**  With an odd number of ghost zones (`nghost` is 5 with particles and third order) prolongation overwrites the first active zone of the
child. -/
theorem prolongate_odd_false : ∃ (o : Ovl ℚ) (G : Fin 3 → Z3 → Cell ℚ 0) (P C : PGrd ℚ 0) (x : Z3), o.ng = 5 ∧
    o.f.is ≤ x.2.2 ∧ x.2.2 ≤ o.f.ie ∧ ((o.prolongate (fun _ => false) G P C).U x).d ≠ (C.U x).d := by
  refine ⟨line1d 5, fun _ _ => ⟨atRest 1, 0, 0, 0⟩, gridOf fun _ => 1, gridOf fun _ => 2, (0, 0, 0), rfl, by decide, by decide, ?_⟩
  decide +kernel

/-- A 3D overlap of `2×1×1` zones of the parent, all of whose boundaries are boundaries between levels, four ghost zones. -/
def cube : Ovl ℚ :=
  { ng := 4, nDim := 3, flx := fun _ => true, c := ⟨5, 5, 5, 5, 5, 6⟩, f := ⟨4, 5, 4, 5, 4, 7⟩, cf := ⟨false, false, false⟩, dx1 := 1, dx2 := 1, dx3 := 1 }

/-- The hypotheses of the theorems above. -/
theorem cube_fits : cube.Fits :=
  ⟨Or.inr (Or.inr rfl), ⟨2, rfl⟩, by decide, by decide, by decide, by decide, by decide, by decide, by decide, by decide⟩

/-- A corner ghost zone, and an active zone. -/
example : cube.Ghost (0, 0, 0) ∧ ¬ cube.Ghost (4, 5, 4) := by decide

example : (∀ n m l, cube.Ghost (cube.fineOf (3, 4, 5) n m l)) := by decide

/-- The corner ghost zone of a parent with density `10 + i`, from the theorem. -/
example (G : Fin 3 → Z3 → Cell ℚ 0) (C : PGrd ℚ 0) :
    ((cube.prolongate (fun _ => false) G (gridOf fun y => 10 + y.2.2) C).U (0, 0, 0)).d = 51 / 4 := by
  have := prolongate_linear cube_fits rfl rfl (fun _ => false) G (gridOf fun y => 10 + y.2.2) C Sel.d (by intro h; simp [cube] at h) 10 0 0 1
    (by intro y; simp [gridOf, atRest, Sel.get]) (0, 0, 0) (by decide)
  simp only [Sel.get] at this
  rw [this]
  norm_num [pos, cube]

end Ovl

end Athena.Smr
