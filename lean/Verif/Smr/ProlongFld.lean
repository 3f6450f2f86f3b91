import Verif.Smr.ProlongProps
import Verif.Smr.FldProps
import Mathlib.Data.List.Induction

/-!
# C117: the field in the ghost zones of a refined Grid after `Prolongate`

Specification: `Inner`, `coarseFld`, `fineFaces`, `blockFld`.
-/

namespace Athena.Smr

variable {R : Type*} [Field R] [LinearOrder R] {ns : Nat}

namespace Ovl
variable (o : Ovl R)

/-! ## Specification -/

/-- Zones of the child near the overlap that prolongation does not set. -/
def Inner (x : Z3) : Prop := o.near x ∧ ¬ o.Ghost x

instance (x : Z3) : Decidable (o.Inner x) := by unfold Inner; infer_instance

/-- The first zone of the child in the zone of the parent that contains `x`. -/
def base (x : Z3) : Z3 :=
  (if 2 < o.nDim then o.f.ks + 2 * ((x.1 - o.f.ks) / 2) else o.f.ks,
   if 1 < o.nDim then o.f.js + 2 * ((x.2.1 - o.f.js) / 2) else o.f.js,
   o.f.is + 2 * ((x.2.2 - o.f.is) / 2))

/-- The parent's field around its zone `y`. -/
def coarseFld (P : PGrd R ns) (y : Z3) : Fld R where
  x1 := fun n m l => if n ≤ 2 ∧ m ≤ 2 ∧ l ≤ 2 then P.B1 (o.disp y ((n : ℤ) - 1) ((m : ℤ) - 1) ((l : ℤ) - 1)) else 0
  x2 := fun n m l => if n ≤ 2 ∧ m ≤ 2 ∧ l ≤ 2 then P.B2 (o.disp y ((n : ℤ) - 1) ((m : ℤ) - 1) ((l : ℤ) - 1)) else 0
  x3 := fun n m l => if n ≤ 2 ∧ m ≤ 2 ∧ l ≤ 2 then P.B3 (o.disp y ((n : ℤ) - 1) ((m : ℤ) - 1) ((l : ℤ) - 1)) else 0

/-- The child's own field on those faces of the block starting at `b` that border on zones not set by prolongation; 0 on the others. -/
def fineFaces (C : PGrd R ns) (b : Z3) : Fld R where
  x1 := fun n m l =>
    if l = 2 ∧ n ≤ 1 ∧ m ≤ 1 ∧ o.Inner (b.1, b.2.1, b.2.2 + 2) then C.B1 (o.disp b n m 2)
    else if l = 0 ∧ n ≤ 1 ∧ m ≤ 1 ∧ o.Inner (b.1, b.2.1, b.2.2 - 1) then C.B1 (o.disp b n m 0) else 0
  x2 := fun n m l =>
    if m = 2 ∧ n ≤ 1 ∧ l ≤ 1 ∧ o.Inner (b.1, b.2.1 + 2, b.2.2) then C.B2 (o.disp b n 2 l)
    else if m = 0 ∧ n ≤ 1 ∧ l ≤ 1 ∧ o.Inner (b.1, b.2.1 - 1, b.2.2) then C.B2 (o.disp b n 0 l) else 0
  x3 := fun n m l =>
    if n = 2 ∧ m ≤ 1 ∧ l ≤ 1 ∧ o.Inner (b.1 + 2, b.2.1, b.2.2) then C.B3 (o.disp b 2 m l)
    else if n = 0 ∧ m ≤ 1 ∧ l ≤ 1 ∧ o.Inner (b.1 - 1, b.2.1, b.2.2) then C.B3 (o.disp b 0 m l) else 0

/-- The field of the block (C31). -/
def blockFld (P C : PGrd R ns) (x : Z3) : Fld R :=
  proFld o.cf (o.coarseFld P (o.coarseOf x)) (o.fineFaces C (o.base x)) o.dx1 o.dx2 o.dx3

/-- Place of `x` in its block. -/
def pn (x : Z3) : ℕ := (x.1 - (o.base x).1).toNat
def pm (x : Z3) : ℕ := (x.2.1 - (o.base x).2.1).toNat
def pl (x : Z3) : ℕ := (x.2.2 - (o.base x).2.2).toNat

variable {o}

/-! ## One boundary -/

theorem base_of (h : o.Fits) (d : Fin 6) (hd : d.val < 2 * o.nDim) (x : Z3) (p : (ℤ × ℤ) × (ℤ × ℤ) × (ℤ × ℤ)) (hp : p ∈ o.blocks d)
    (hx : o.inBlock p.1.1 p.2.1.1 p.2.2.1 x) : o.base x = (p.1.1, p.2.1.1, p.2.2.1) := by
  obtain ⟨a, b, c⟩ := p
  simp only [blocks, List.mem_product, mem_pairs] at hp
  obtain ⟨⟨n1, h1, rfl⟩, ⟨n2, h2, rfl⟩, n3, h3, rfl⟩ := hp
  obtain ⟨x1, x2, x3⟩ := hx
  dsimp only at x1 x2 x3
  obtain ⟨hdim, ⟨g, hg⟩, ci, fi, cj, fj, fj1, ck, fk, fk1⟩ := h
  unfold base
  rcases hdim with e | e | e <;> fin_cases d <;>
    simp [dst, nend, mend, e, hg] at hd h1 h2 h3 x1 x2 x3 fj fj1 fk fk1 ⊢ <;> omega

theorem bgz_eq (h : o.Fits) (h2 : 1 < o.nDim) (d : Fin 6) (hd : d.val < 2 * o.nDim) (P : PGrd R ns) (G : Z3 → Cell R ns) (x : Z3)
    (p : (ℤ × ℤ) × (ℤ × ℤ) × (ℤ × ℤ)) (hp : p ∈ o.blocks d) (hx : o.inBlock p.1.1 p.2.1.1 p.2.2.1 x) :
    bgz (o.copies (o.gz d) (load G (loop (o.gz d)) (o.send1 P d))) p.1.2 p.2.1.2 p.2.2.2 = o.coarseFld P (o.coarseOf x) := by
  obtain ⟨hc, -, gk, gj, gi⟩ := block_of h d hd x p hp hx
  have st : ∀ n m l : ℕ, n ≤ 2 ∧ m ≤ 2 ∧ l ≤ 2 →
      o.copies (o.gz d) (load G (loop (o.gz d)) (o.send1 P d)) (p.1.2 + ((n : ℤ) - 1), p.2.1.2 + ((m : ℤ) - 1), p.2.2.2 + ((l : ℤ) - 1)) =
        P.cell (o.disp (o.coarseOf x) ((n : ℤ) - 1) ((m : ℤ) - 1) ((l : ℤ) - 1)) := by
    intro n m l hm
    rw [hc]
    apply stencil' h d hd P G
    · split_ifs at gk ⊢ <;> omega
    · rw [if_pos h2] at gj ⊢; omega
    · omega
    · intro q; exact absurd h2 q
  unfold bgz coarseFld
  congr 1 <;> funext n m l <;> split_ifs with q <;> first
    | rfl
    | (rw [st n m l q]; rfl)

/-- The field that the loop for boundary `d`, started on `B`, gives to the block of `x`. -/
def dimFld (o : Ovl R) (d : Fin 6) (P B : PGrd R ns) (x : Z3) : Fld R :=
  proFld o.cf (o.coarseFld P (o.coarseOf x)) (o.known d B (o.base x).1 (o.base x).2.1 (o.base x).2.2) o.dx1 o.dx2 o.dx3

open Classical in
/-- What the loop for boundary `d` has done to the field when the blocks `l` are done. -/
structure Done (d : Fin 6) (P B0 B : PGrd R ns) (S : Z3 → Prop) : Prop where
  b1 : ∀ x, B.B1 x = if S x ∧ (d ≠ 1 ∨ x.2.2 ≠ (o.dst d).is) then (o.dimFld d P B0 x).x1 (o.pn x) (o.pm x) (o.pl x) else B0.B1 x
  b2 : ∀ x, B.B2 x = if S x ∧ (d ≠ 3 ∨ x.2.1 ≠ (o.dst d).js) then (o.dimFld d P B0 x).x2 (o.pn x) (o.pm x) (o.pl x) else B0.B2 x
  b3 : ∀ x, B.B3 x = if S x ∧ (d ≠ 5 ∨ x.1 ≠ (o.dst d).ks) then (o.dimFld d P B0 x).x3 (o.pn x) (o.pm x) (o.pl x) else B0.B3 x
  u1 : ∀ x, (B.U x).b1 = if S x then 1/2 * ((o.dimFld d P B0 x).x1 (o.pn x) (o.pm x) (o.pl x) + (o.dimFld d P B0 x).x1 (o.pn x) (o.pm x) (o.pl x + 1))
    else (B0.U x).b1
  u2 : ∀ x, (B.U x).b2 = if S x then 1/2 * ((o.dimFld d P B0 x).x2 (o.pn x) (o.pm x) (o.pl x) + (o.dimFld d P B0 x).x2 (o.pn x) (o.pm x + 1) (o.pl x))
    else (B0.U x).b2
  u3 : ∀ x, (B.U x).b3 = if S x then 1/2 * ((o.dimFld d P B0 x).x3 (o.pn x) (o.pm x) (o.pl x) + (o.dimFld d P B0 x).x3 (o.pn x + 1) (o.pm x) (o.pl x))
    else (B0.U x).b3

/-- Not beyond the boundaries along x1 (x2) that are boundaries between levels. -/
def inI (o : Ovl R) (z : Z3) : Prop := (o.flx 0 = true → o.f.is ≤ z.2.2) ∧ (o.flx 1 = true → z.2.2 ≤ o.f.ie)
def inJ (o : Ovl R) (z : Z3) : Prop := (o.flx 2 = true → o.f.js ≤ z.2.1) ∧ (o.flx 3 = true → z.2.1 ≤ o.f.je)

instance (z : Z3) : Decidable (o.inI z) := by unfold inI; infer_instance
instance (z : Z3) : Decidable (o.inJ z) := by unfold inJ; infer_instance

theorem between_I {d : Fin 6} (hd : d ≠ 0 ∧ d ≠ 1) {i : ℤ} (h : o.between i (o.dst d).is (o.dst d).ie 0 1 = true) {l : ℕ} (hl : l ≤ 1) (a b : ℤ) :
    o.inI (a, b, i + (l : ℤ)) := by
  have e : (o.dst d).is = o.f.is - o.ng ∧ (o.dst d).ie = o.f.ie + o.ng := by
    fin_cases d <;> simp [dst] at hd ⊢
  unfold between at h
  rw [e.1, e.2] at h
  simp only [Bool.and_eq_true, Bool.or_eq_true, decide_eq_true_eq, Bool.not_eq_true'] at h
  unfold inI
  constructor <;> intro q
  · rw [q] at h; simp at h ⊢; omega
  · rw [q] at h; simp at h ⊢; omega

theorem between_J {d : Fin 6} (hn : 1 < o.nDim) (hd : d ≠ 2 ∧ d ≠ 3) {j : ℤ} (h : o.between j (o.dst d).js (o.dst d).je 2 3 = true) {m : ℕ} (hm : m ≤ 1) (a b : ℤ) :
    o.inJ (a, j + (m : ℤ), b) := by
  have e : (o.dst d).js = o.f.js - o.ng ∧ (o.dst d).je = o.f.je + o.ng := by
    fin_cases d <;> simp [dst, hn] at hd ⊢
  unfold between at h
  rw [e.1, e.2] at h
  simp only [Bool.and_eq_true, Bool.or_eq_true, decide_eq_true_eq, Bool.not_eq_true'] at h
  unfold inJ
  constructor <;> intro q
  · rw [q] at h; simp at h ⊢; omega
  · rw [q] at h; simp at h ⊢; omega

/-- Which faces of the child are read. -/
theorem known_congr (hn : 1 < o.nDim) (d : Fin 6) (B B0 : PGrd R ns) (k j i : ℤ)
    (h1 : ∀ z : Z3, (d = 0 ∧ z.2.2 = o.f.is ∨ d = 1 ∧ z.2.2 = o.f.ie + 1) → B.B1 z = B0.B1 z)
    (h2 : ∀ z : Z3, (d = 2 ∧ z.2.1 = o.f.js ∨ d = 3 ∧ z.2.1 = o.f.je + 1) → o.inI z → B.B2 z = B0.B2 z)
    (h3 : ∀ z : Z3, (d = 4 ∧ z.1 = o.f.ks ∨ d = 5 ∧ z.1 = o.f.ke + 1) → o.inI z → o.inJ z → B.B3 z = B0.B3 z) :
    o.known d B k j i = o.known d B0 k j i := by
  have r0 : (o.dst 0).ie = o.f.is - 1 := by simp [dst]
  have r1 : (o.dst 1).is = o.f.ie + 1 := by simp [dst]
  have r2 : (o.dst 2).je = o.f.js - 1 := by simp [dst]
  have r3 : (o.dst 3).js = o.f.je + 1 := by simp [dst]
  have r4 : (o.dst 4).ke = o.f.ks - 1 := by simp [dst]
  have r5 : (o.dst 5).ks = o.f.ke + 1 := by simp [dst]
  unfold known
  congr 1 <;> funext n m l <;> dsimp only
  · generalize (if o.nDim = 3 ∧ o.between k (o.dst d).ks (o.dst d).ke 4 5 = true then (n : ℤ) else 0) = u
    split_ifs with q1 q2
    · obtain ⟨rfl, q, -⟩ := q1
      rw [h1]; left; exact ⟨rfl, by dsimp only; omega⟩
    · obtain ⟨rfl, q, -⟩ := q2
      rw [h1]; right; exact ⟨rfl, by dsimp only; omega⟩
    · rfl
  · generalize (if o.nDim = 3 ∧ o.between k (o.dst d).ks (o.dst d).ke 4 5 = true then (n : ℤ) else 0) = u
    split_ifs with q1 q2
    · obtain ⟨rfl, q, hb, -, -, hl⟩ := q1
      rw [h2]
      · left; exact ⟨rfl, by dsimp only; omega⟩
      · exact between_I (by decide) hb hl _ _
    · obtain ⟨rfl, q, hb, -, -, hl⟩ := q2
      rw [h2]
      · right; exact ⟨rfl, by dsimp only; omega⟩
      · exact between_I (by decide) hb hl _ _
    · rfl
  · split_ifs with q1 q2
    · obtain ⟨rfl, q, hb, hc, -, hm, hl⟩ := q1
      rw [h3]
      · left; exact ⟨rfl, by dsimp only; omega⟩
      · exact between_I (by decide) hb hl _ _
      · exact between_J hn (by decide) hc hm _ _
    · obtain ⟨rfl, q, hb, hc, -, hm, hl⟩ := q2
      rw [h3]
      · right; exact ⟨rfl, by dsimp only; omega⟩
      · exact between_I (by decide) hb hl _ _
      · exact between_J hn (by decide) hc hm _ _
    · rfl

/-- The faces read for boundary `d` are not among those written for it. -/
theorem known_stable (hn : 1 < o.nDim) (d : Fin 6) (P B0 B : PGrd R ns) (S : Z3 → Prop)
    (hS : ∀ x, S x → o.near x ∧ o.beyond d x) (hB : Done (o := o) d P B0 B S) (k j i : ℤ) : o.known d B k j i = o.known d B0 k j i := by
  apply known_congr hn
  · rintro z (⟨rfl, q⟩ | ⟨rfl, q⟩)
    · rw [hB.b1, if_neg]
      rintro ⟨a, -⟩
      have := (hS z a).2
      simp [beyond] at this; omega
    · rw [hB.b1, if_neg]
      rintro ⟨-, b⟩
      simp [dst] at b; omega
  · rintro z (⟨rfl, q⟩ | ⟨rfl, q⟩) -
    · rw [hB.b2, if_neg]
      rintro ⟨a, -⟩
      have := (hS z a).2
      simp [beyond] at this; omega
    · rw [hB.b2, if_neg]
      rintro ⟨-, b⟩
      simp [dst] at b; omega
  · rintro z (⟨rfl, q⟩ | ⟨rfl, q⟩) - -
    · rw [hB.b3, if_neg]
      rintro ⟨a, -⟩
      have := (hS z a).2
      simp [beyond] at this; omega
    · rw [hB.b3, if_neg]
      rintro ⟨-, b⟩
      simp [dst] at b; omega

/-- The loops over the blocks. -/
theorem blocks_done (h : o.Fits) (hn : 1 < o.nDim) (hm : o.cf.mhd = true) (bad : ConsS R ns → Bool) (d : Fin 6) (hd : d.val < 2 * o.nDim) (P : PGrd R ns)
    (G : Z3 → Cell R ns) (B0 : PGrd R ns) (l : List ((ℤ × ℤ) × (ℤ × ℤ) × (ℤ × ℤ))) (hl : ∀ p ∈ l, p ∈ o.blocks d) :
    Done (o := o) d P B0 (l.foldl (o.body bad (o.copies (o.gz d) (load G (loop (o.gz d)) (o.send1 P d))) d) B0)
      (fun x => ∃ p ∈ l, o.inBlock p.1.1 p.2.1.1 p.2.2.1 x) := by
  induction l using List.reverseRecOn with
  | nil => constructor <;> intro x <;> simp
  | append_singleton l p ih =>
    have ih := ih fun q hq => hl q (List.mem_append_left _ hq)
    have hp : p ∈ o.blocks d := hl p (by simp)
    rw [List.foldl_append, List.foldl_cons, List.foldl_nil]
    generalize l.foldl (o.body bad (o.copies (o.gz d) (load G (loop (o.gz d)) (o.send1 P d))) d) B0 = B at *
    have hk := known_stable hn d P B0 B _ (fun x hx => by
      obtain ⟨q, hq, hb⟩ := hx
      exact (covered h d hd x).1 ⟨q, hl q (List.mem_append_left _ hq), hb⟩) ih
    have hS : ∀ x, (∃ q ∈ l ++ [p], o.inBlock q.1.1 q.2.1.1 q.2.2.1 x) ↔ (o.inBlock p.1.1 p.2.1.1 p.2.2.1 x ∨ ∃ q ∈ l, o.inBlock q.1.1 q.2.1.1 q.2.2.1 x) := by
      intro x
      simp only [List.mem_append, List.mem_singleton]
      constructor
      · rintro ⟨q, hq | rfl, hb⟩
        · exact Or.inr ⟨q, hq, hb⟩
        · exact Or.inl hb
      · rintro (hb | ⟨q, hq, hb⟩)
        · exact ⟨p, Or.inr rfl, hb⟩
        · exact ⟨q, Or.inl hq, hb⟩
    have hF : ∀ x, o.inBlock p.1.1 p.2.1.1 p.2.2.1 x →
        proFld o.cf (bgz (o.copies (o.gz d) (load G (loop (o.gz d)) (o.send1 P d))) p.1.2 p.2.1.2 p.2.2.2)
          (o.known d { B with U := o.setCons bad (o.copies (o.gz d) (load G (loop (o.gz d)) (o.send1 P d))) p B.U } p.1.1 p.2.1.1 p.2.2.1) o.dx1 o.dx2 o.dx3 =
        o.dimFld d P B0 x ∧ (x.1 - p.1.1).toNat = o.pn x ∧ (x.2.1 - p.2.1.1).toNat = o.pm x ∧ (x.2.2 - p.2.2.1).toNat = o.pl x := by
      intro x hx
      have hb := base_of h d hd x p hp hx
      refine ⟨?_, ?_, ?_, ?_⟩
      · unfold dimFld
        rw [bgz_eq h hn d hd P G x p hp hx, hb]
        dsimp only
        rw [← hk]
        rfl
      · unfold pn; rw [hb]
      · unfold pm; rw [hb]
      · unfold pl; rw [hb]
    have hU : ∀ x, ¬ o.inBlock p.1.1 p.2.1.1 p.2.2.1 x →
        o.setCons bad (o.copies (o.gz d) (load G (loop (o.gz d)) (o.send1 P d))) p B.U x = B.U x := by
      intro x hx; unfold setCons; simp only [if_neg hx]
    have hone : ¬ o.nDim = 1 := by omega
    constructor <;> intro x <;> unfold body <;> simp only [hm, if_true] <;> unfold setFld <;> simp only [hone, if_false, hS]
    · by_cases hx : o.inBlock p.1.1 p.2.1.1 p.2.2.1 x
      · obtain ⟨f1, f2, f3, f4⟩ := hF x hx
        by_cases hg : d ≠ 1 ∨ x.2.2 ≠ (o.dst d).is
        · rw [if_pos ⟨hx, hg⟩, if_pos ⟨Or.inl hx, hg⟩, f1, f2, f3, f4]
        · rw [if_neg (fun q => hg q.2), if_neg (fun q => hg q.2), ih.b1, if_neg (fun q => hg q.2)]
      · rw [if_neg (fun q => hx q.1), ih.b1]; simp only [hx, false_or]; try congr
    · by_cases hx : o.inBlock p.1.1 p.2.1.1 p.2.2.1 x
      · obtain ⟨f1, f2, f3, f4⟩ := hF x hx
        by_cases hg : d ≠ 3 ∨ x.2.1 ≠ (o.dst d).js
        · rw [if_pos ⟨hx, hg⟩, if_pos ⟨Or.inl hx, hg⟩, f1, f2, f3, f4]
        · rw [if_neg (fun q => hg q.2), if_neg (fun q => hg q.2), ih.b2, if_neg (fun q => hg q.2)]
      · rw [if_neg (fun q => hx q.1), ih.b2]; simp only [hx, false_or]; try congr
    · by_cases hx : o.inBlock p.1.1 p.2.1.1 p.2.2.1 x
      · obtain ⟨f1, f2, f3, f4⟩ := hF x hx
        by_cases hg : d ≠ 5 ∨ x.1 ≠ (o.dst d).ks
        · rw [if_pos ⟨hx, hg⟩, if_pos ⟨Or.inl hx, hg⟩, f1, f2, f3, f4]
        · rw [if_neg (fun q => hg q.2), if_neg (fun q => hg q.2), ih.b3, if_neg (fun q => hg q.2)]
      · rw [if_neg (fun q => hx q.1), ih.b3]; simp only [hx, false_or]; try congr
    · by_cases hx : o.inBlock p.1.1 p.2.1.1 p.2.2.1 x
      · obtain ⟨f1, f2, f3, f4⟩ := hF x hx
        rw [if_pos hx, if_pos (Or.inl hx), f1, f2, f3, f4]
      · rw [if_neg hx, hU x hx, ih.u1]; simp only [hx, false_or]; try congr
    · by_cases hx : o.inBlock p.1.1 p.2.1.1 p.2.2.1 x
      · obtain ⟨f1, f2, f3, f4⟩ := hF x hx
        rw [if_pos hx, if_pos (Or.inl hx), f1, f2, f3, f4]
      · rw [if_neg hx, hU x hx, ih.u2]; simp only [hx, false_or]; try congr
    · by_cases hx : o.inBlock p.1.1 p.2.1.1 p.2.2.1 x
      · obtain ⟨f1, f2, f3, f4⟩ := hF x hx
        rw [if_pos hx, if_pos (Or.inl hx), f1, f2, f3, f4]
      · rw [if_neg hx, hU x hx, ih.u3]; simp only [hx, false_or]; try congr

/-! ## The faces read are those that border on zones not set -/

theorem between_iff (a ps pe : ℤ) (lo hi : Fin 6) :
    o.between a ps pe lo hi = true ↔ (ps + o.ng ≤ a ∨ ¬ o.flx lo = true) ∧ (a < pe - o.ng ∨ ¬ o.flx hi = true) := by
  unfold between
  simp [Bool.and_eq_true, Bool.or_eq_true]

theorem ghost_iff (x : Z3) : o.Ghost x ↔ o.near x ∧ ((0 < o.nDim ∧ o.flx 0 = true ∧ x.2.2 < o.f.is) ∨ (0 < o.nDim ∧ o.flx 1 = true ∧ o.f.ie < x.2.2) ∨
    (1 < o.nDim ∧ o.flx 2 = true ∧ x.2.1 < o.f.js) ∨ (1 < o.nDim ∧ o.flx 3 = true ∧ o.f.je < x.2.1) ∨
    (2 < o.nDim ∧ o.flx 4 = true ∧ x.1 < o.f.ks) ∨ (2 < o.nDim ∧ o.flx 5 = true ∧ o.f.ke < x.1)) := by
  unfold Ghost
  apply and_congr_right
  intro _
  constructor
  · rintro ⟨d, h1, h2, h3⟩
    fin_cases d <;> simp [beyond] at h1 h2 h3 <;> simp [h2, h3] <;> omega
  · rintro (⟨h1, h2, h3⟩ | ⟨h1, h2, h3⟩ | ⟨h1, h2, h3⟩ | ⟨h1, h2, h3⟩ | ⟨h1, h2, h3⟩ | ⟨h1, h2, h3⟩)
    · exact ⟨0, by simp; omega, h2, by simpa [beyond] using h3⟩
    · exact ⟨1, by simp; omega, h2, by simpa [beyond] using h3⟩
    · exact ⟨2, by simp; omega, h2, by simpa [beyond] using h3⟩
    · exact ⟨3, by simp; omega, h2, by simpa [beyond] using h3⟩
    · exact ⟨4, by simp; omega, h2, by simpa [beyond] using h3⟩
    · exact ⟨5, by simp; omega, h2, by simpa [beyond] using h3⟩

/-- `x` is beyond `d` and beyond no later boundary between levels. -/
def LastAt (o : Ovl R) (d : Fin 6) (x : Z3) : Prop :=
  d.val < 2 * o.nDim ∧ o.flx d = true ∧ o.near x ∧ o.beyond d x ∧ ∀ e : Fin 6, d < e → e.val < 2 * o.nDim → o.flx e = true → ¬ o.beyond e x

theorem ind (p : Prop) : ∃ a : ℤ, p ↔ a = 1 := by
  by_cases h : p
  · exact ⟨1, by simp [h]⟩
  · exact ⟨0, by simp [h]⟩

theorem later (d : Fin 6) (x : Z3) (h : ∀ e : Fin 6, d < e → e.val < 2 * o.nDim → o.flx e = true → ¬ o.beyond e x) :
    (d.val < 1 → 0 < o.nDim → o.flx 1 = true → x.2.2 ≤ o.f.ie) ∧ (d.val < 2 → 1 < o.nDim → o.flx 2 = true → o.f.js ≤ x.2.1) ∧
    (d.val < 3 → 1 < o.nDim → o.flx 3 = true → x.2.1 ≤ o.f.je) ∧ (d.val < 4 → 2 < o.nDim → o.flx 4 = true → o.f.ks ≤ x.1) ∧
    (d.val < 5 → 2 < o.nDim → o.flx 5 = true → x.1 ≤ o.f.ke) := by
  refine ⟨fun a b c => ?_, fun a b c => ?_, fun a b c => ?_, fun a b c => ?_, fun a b c => ?_⟩
  · have := h 1 (Fin.lt_def.2 (by simpa using a)) (by simp; omega) c; simpa [beyond] using this
  · have := h 2 (Fin.lt_def.2 (by simpa using a)) (by simp; omega) c; simpa [beyond] using this
  · have := h 3 (Fin.lt_def.2 (by simpa using a)) (by simp; omega) c; simpa [beyond] using this
  · have := h 4 (Fin.lt_def.2 (by simpa using a)) (by simp; omega) c; simpa [beyond] using this
  · have := h 5 (Fin.lt_def.2 (by simpa using a)) (by simp; omega) c; simpa [beyond] using this

/-- A zone and its block. -/
structure Pos (o : Ovl R) (x : Z3) : Prop where
  i : ∃ t, (o.base x).2.2 = o.f.is + 2 * t ∧ (o.base x).2.2 ≤ x.2.2 ∧ x.2.2 ≤ (o.base x).2.2 + 1
  j : ∃ t, (o.base x).2.1 = o.f.js + 2 * t ∧ (o.base x).2.1 ≤ x.2.1 ∧ x.2.1 ≤ (o.base x).2.1 + 1
  k : ∃ t, (o.base x).1 = o.f.ks + 2 * t ∧ (o.base x).1 ≤ x.1 ∧ x.1 ≤ (o.base x).1 + 1
  ni : o.f.is - o.ng ≤ x.2.2 ∧ x.2.2 ≤ o.f.ie + o.ng
  nj : o.f.js - o.ng ≤ x.2.1 ∧ x.2.1 ≤ o.f.je + o.ng
  nk : if o.nDim = 3 then o.f.ks - o.ng ≤ x.1 ∧ x.1 ≤ o.f.ke + o.ng else x.1 = o.f.ks ∧ (o.base x).1 = o.f.ks

theorem pos_of (hn : o.nDim = 2 ∨ o.nDim = 3) (x : Z3) (hx : o.near x) : o.Pos x := by
  obtain ⟨h1, h2, h3⟩ := hx
  rw [if_pos (by omega)] at h2
  have hn2 : 1 < o.nDim := by omega
  refine ⟨⟨(x.2.2 - o.f.is) / 2, ?_⟩, ⟨(x.2.1 - o.f.js) / 2, ?_⟩, ?_, h3, h2, ?_⟩
  · refine ⟨rfl, ?_, ?_⟩ <;> simp only [base] <;> omega
  · refine ⟨by simp only [base, if_pos hn2], ?_, ?_⟩ <;> simp only [base, if_pos hn2] <;> omega
  · rcases hn with e | e
    · refine ⟨0, ?_⟩
      simp only [base, e] at h1 ⊢
      simp at h1 ⊢; omega
    · refine ⟨(x.1 - o.f.ks) / 2, ?_⟩
      simp only [base, e]
      simp; omega
  · rcases hn with e | e
    · simp only [e] at h1 ⊢
      simp [base, e] at h1 ⊢; omega
    · simp only [e] at h1 ⊢
      simpa using h1

theorem near_of (hn : o.nDim = 2 ∨ o.nDim = 3) {a b c : ℤ} (h1 : o.f.is - o.ng ≤ c ∧ c ≤ o.f.ie + o.ng) (h2 : o.f.js - o.ng ≤ b ∧ b ≤ o.f.je + o.ng)
    (h3 : if o.nDim = 3 then o.f.ks - o.ng ≤ a ∧ a ≤ o.f.ke + o.ng else a = o.f.ks) : o.near (a, b, c) := by
  unfold near
  refine ⟨?_, ?_, h1⟩
  · rcases hn with e | e
    · simp [e] at h3 ⊢; exact h3
    · simp [e] at h3 ⊢; exact h3
  · rw [if_pos (by omega)]; exact h2

/-- A zone beyond `d` is not one that prolongation leaves alone. -/
theorem inner_not {d : Fin 6} {y : Z3} (hI : o.Inner y) (hd : d.val < 2 * o.nDim) (hf : o.flx d = true) : ¬ o.beyond d y :=
  fun hb => hI.2 ⟨hI.1, d, hd, hf, hb⟩

theorem inner_of (hn : o.nDim = 2 ∨ o.nDim = 3) {a b c : ℤ} (hnear : o.near (a, b, c)) (h0 : o.flx 0 = true → o.f.is ≤ c) (h1 : o.flx 1 = true → c ≤ o.f.ie)
    (h2 : o.flx 2 = true → o.f.js ≤ b) (h3 : o.flx 3 = true → b ≤ o.f.je)
    (h4 : o.nDim = 3 → o.flx 4 = true → o.f.ks ≤ a) (h5 : o.nDim = 3 → o.flx 5 = true → a ≤ o.f.ke) : o.Inner (a, b, c) := by
  refine ⟨hnear, fun hg => ?_⟩
  obtain ⟨-, ⟨-, q, r⟩ | ⟨-, q, r⟩ | ⟨-, q, r⟩ | ⟨-, q, r⟩ | ⟨l, q, r⟩ | ⟨l, q, r⟩⟩ := (ghost_iff _).1 hg <;> dsimp only at r
  · have := h0 q; omega
  · have := h1 q; omega
  · have := h2 q; omega
  · have := h3 q; omega
  · have := h4 (by omega) q; omega
  · have := h5 (by omega) q; omega

theorem faces1 (h : o.Fits) (hn : o.nDim = 2 ∨ o.nDim = 3) (d : Fin 6) (x : Z3) (hx : o.LastAt d x) :
    ((d = 0 ∧ (o.base x).2.2 = (o.dst d).ie - 1 ∧ o.between (o.base x).2.1 (o.dst d).js (o.dst d).je 2 3 = true) ↔
      o.Inner ((o.base x).1, (o.base x).2.1, (o.base x).2.2 + 2)) ∧
    ((d = 1 ∧ (o.base x).2.2 = (o.dst d).is ∧ o.between (o.base x).2.1 (o.dst d).js (o.dst d).je 2 3 = true) ↔
      o.Inner ((o.base x).1, (o.base x).2.1, (o.base x).2.2 - 1)) := by
  obtain ⟨hd, hf, hnear, hb, hl⟩ := hx
  have hl := later d x hl
  have hp := pos_of hn x hnear
  obtain ⟨⟨ti, i1, i2, i3⟩, ⟨tj, j1, j2, j3⟩, ⟨tk, k1, k2, k3⟩, ni, nj, nk⟩ := hp
  have hn2 : 1 < o.nDim := by omega
  have fi := h.fi
  have fj := h.fj hn2
  have ci := h.ci
  have cj := h.cj
  have ck := h.ck
  obtain ⟨g, hg⟩ := h.even
  have bi : ∀ c : ℤ, 1 < d.val → o.beyond d ((o.base x).1, (o.base x).2.1, c) := by
    intro c hd1
    fin_cases d <;> simp [beyond] at hd1 hb hd ⊢
    · omega
    · omega
    · omega
    · have := h.fk (by omega); omega
  have nk' : if o.nDim = 3 then o.f.ks - o.ng ≤ (o.base x).1 ∧ (o.base x).1 ≤ o.f.ke + o.ng else (o.base x).1 = o.f.ks := by
    split_ifs with e
    · rw [if_pos e] at nk; have := h.fk (by omega); omega
    · rw [if_neg e] at nk; exact nk.2
  constructor
  · constructor
    · rintro ⟨rfl, q, r⟩
      rw [between_iff] at r
      simp [dst, hn2] at q r
      simp [beyond] at hb
      apply inner_of hn (near_of hn _ _ nk')
      · intro _; omega
      · intro _; omega
      · intro s; have := hl.2.1 (by simp) hn2 s; omega
      · intro s; have := hl.2.2.1 (by simp) hn2 s; omega
      · intro e s; have := hl.2.2.2.1 (by simp) (by omega) s; omega
      · intro e s; have := hl.2.2.2.2 (by simp) (by omega) s; have := h.fk (by omega); omega
      · omega
      · omega
    · intro hI
      have hq := inner_not hI hd hf
      have hd2 : d = 0 := by
        by_contra hne
        by_cases hd1 : d = 1
        · subst hd1; simp [beyond] at hb hq; omega
        · exact hq (bi _ (by have : d.val ≠ 0 := fun e => hne (Fin.ext e); have : d.val ≠ 1 := fun e => hd1 (Fin.ext e); omega))
      subst hd2
      simp [beyond] at hb hq
      have hnI := hI.1.2.2
      dsimp only at hnI
      refine ⟨rfl, ?_, ?_⟩
      · simp [dst]; omega
      · rw [between_iff]
        simp only [dst]; simp [hn2]
        constructor
        · by_cases s : o.flx 2 = true
          · have := hl.2.1 (by simp) hn2 s; left; omega
          · right; simpa using s
        · by_cases s : o.flx 3 = true
          · have := hl.2.2.1 (by simp) hn2 s; left; omega
          · right; simpa using s
  · constructor
    · rintro ⟨rfl, q, r⟩
      rw [between_iff] at r
      simp [dst, hn2] at q r
      simp [beyond] at hb
      apply inner_of hn (near_of hn _ _ nk')
      · intro _; omega
      · intro _; omega
      · intro s; have := hl.2.1 (by simp) hn2 s; omega
      · intro s; have := hl.2.2.1 (by simp) hn2 s; omega
      · intro e s; have := hl.2.2.2.1 (by simp) (by omega) s; omega
      · intro e s; have := hl.2.2.2.2 (by simp) (by omega) s; have := h.fk (by omega); omega
      · omega
      · omega
    · intro hI
      have hq := inner_not hI hd hf
      have hd2 : d = 1 := by
        by_contra hne
        by_cases hd1 : d = 0
        · subst hd1; simp [beyond] at hb hq; omega
        · exact hq (bi _ (by have : d.val ≠ 0 := fun e => hd1 (Fin.ext e); have : d.val ≠ 1 := fun e => hne (Fin.ext e); omega))
      subst hd2
      simp [beyond] at hb hq
      have hnI := hI.1.2.2
      dsimp only at hnI
      refine ⟨rfl, ?_, ?_⟩
      · simp [dst]; omega
      · rw [between_iff]
        simp only [dst]; simp [hn2]
        constructor
        · by_cases s : o.flx 2 = true
          · have := hl.2.1 (by simp) hn2 s; left; omega
          · right; simpa using s
        · by_cases s : o.flx 3 = true
          · have := hl.2.2.1 (by simp) hn2 s; left; omega
          · right; simpa using s

theorem faces2 (h : o.Fits) (hn : o.nDim = 2 ∨ o.nDim = 3) (d : Fin 6) (x : Z3) (hx : o.LastAt d x) :
    ((d = 2 ∧ (o.base x).2.1 = (o.dst d).je - 1 ∧ o.between (o.base x).2.2 (o.dst d).is (o.dst d).ie 0 1 = true) ↔
      o.Inner ((o.base x).1, (o.base x).2.1 + 2, (o.base x).2.2)) ∧
    ((d = 3 ∧ (o.base x).2.1 = (o.dst d).js ∧ o.between (o.base x).2.2 (o.dst d).is (o.dst d).ie 0 1 = true) ↔
      o.Inner ((o.base x).1, (o.base x).2.1 - 1, (o.base x).2.2)) := by
  obtain ⟨hd, hf, hnear, hb, hl⟩ := hx
  have hl := later d x hl
  have hp := pos_of hn x hnear
  obtain ⟨⟨ti, i1, i2, i3⟩, ⟨tj, j1, j2, j3⟩, ⟨tk, k1, k2, k3⟩, ni, nj, nk⟩ := hp
  have hn2 : 1 < o.nDim := by omega
  have fi := h.fi
  have fj := h.fj hn2
  have ci := h.ci
  have cj := h.cj
  have ck := h.ck
  obtain ⟨g, hg⟩ := h.even
  have bi : ∀ c : ℤ, (d.val ≠ 2 ∧ d.val ≠ 3) → o.beyond d ((o.base x).1, c, (o.base x).2.2) := by
    intro c hd1
    fin_cases d <;> simp [beyond] at hd1 hb hd ⊢
    · omega
    · omega
    · omega
    · have := h.fk (by omega); omega
  have nk' : if o.nDim = 3 then o.f.ks - o.ng ≤ (o.base x).1 ∧ (o.base x).1 ≤ o.f.ke + o.ng else (o.base x).1 = o.f.ks := by
    split_ifs with e
    · rw [if_pos e] at nk; have := h.fk (by omega); omega
    · rw [if_neg e] at nk; exact nk.2
  constructor
  · constructor
    · rintro ⟨rfl, q, r⟩
      rw [between_iff] at r
      simp [dst, hn2] at q
      simp [beyond] at hb
      apply inner_of hn (near_of hn _ _ nk')
      · intro s; have := r.1.resolve_right (fun t => t s); simp [dst] at this; omega
      · intro s; have := r.2.resolve_right (fun t => t s); simp [dst] at this; omega
      · intro _; omega
      · intro _; omega
      · intro e s; have := hl.2.2.2.1 (by simp) (by omega) s; omega
      · intro e s; have := hl.2.2.2.2 (by simp) (by omega) s; have := h.fk (by omega); omega
      · omega
      · omega
    · intro hI
      have hq := inner_not hI hd hf
      have hd2 : d = 2 := by
        by_contra hne
        by_cases hd1 : d = 3
        · subst hd1; simp [beyond] at hb hq; omega
        · exact hq (bi _ (by have : d.val ≠ 2 := fun e => hne (Fin.ext e); have : d.val ≠ 3 := fun e => hd1 (Fin.ext e); omega))
      subst hd2
      simp [beyond] at hb hq
      have hnI := hI.1.2.1
      rw [if_pos hn2] at hnI
      dsimp only at hnI
      refine ⟨rfl, ?_, ?_⟩
      · simp [dst, hn2]; omega
      · rw [between_iff]
        simp only [dst]; simp
        constructor
        · by_cases s : o.flx 0 = true
          · have := inner_not hI (d := 0) (by simp; omega) s; simp [beyond] at this; left; omega
          · right; simpa using s
        · by_cases s : o.flx 1 = true
          · have := inner_not hI (d := 1) (by simp; omega) s; simp [beyond] at this; left; omega
          · right; simpa using s
  · constructor
    · rintro ⟨rfl, q, r⟩
      rw [between_iff] at r
      simp [dst, hn2] at q
      simp [beyond] at hb
      apply inner_of hn (near_of hn _ _ nk')
      · intro s; have := r.1.resolve_right (fun t => t s); simp [dst] at this; omega
      · intro s; have := r.2.resolve_right (fun t => t s); simp [dst] at this; omega
      · intro _; omega
      · intro _; omega
      · intro e s; have := hl.2.2.2.1 (by simp) (by omega) s; omega
      · intro e s; have := hl.2.2.2.2 (by simp) (by omega) s; have := h.fk (by omega); omega
      · omega
      · omega
    · intro hI
      have hq := inner_not hI hd hf
      have hd2 : d = 3 := by
        by_contra hne
        by_cases hd1 : d = 2
        · subst hd1; simp [beyond] at hb hq; omega
        · exact hq (bi _ (by have : d.val ≠ 3 := fun e => hne (Fin.ext e); have : d.val ≠ 2 := fun e => hd1 (Fin.ext e); omega))
      subst hd2
      simp [beyond] at hb hq
      have hnI := hI.1.2.1
      rw [if_pos hn2] at hnI
      dsimp only at hnI
      refine ⟨rfl, ?_, ?_⟩
      · simp [dst, hn2]; omega
      · rw [between_iff]
        simp only [dst]; simp
        constructor
        · by_cases s : o.flx 0 = true
          · have := inner_not hI (d := 0) (by simp; omega) s; simp [beyond] at this; left; omega
          · right; simpa using s
        · by_cases s : o.flx 1 = true
          · have := inner_not hI (d := 1) (by simp; omega) s; simp [beyond] at this; left; omega
          · right; simpa using s

theorem faces3 (h : o.Fits) (hn : o.nDim = 2 ∨ o.nDim = 3) (d : Fin 6) (x : Z3) (hx : o.LastAt d x) :
    ((d = 4 ∧ (o.base x).1 = (o.dst d).ke - 1 ∧ o.between (o.base x).2.2 (o.dst d).is (o.dst d).ie 0 1 = true ∧
        o.between (o.base x).2.1 (o.dst d).js (o.dst d).je 2 3 = true) ↔
      o.Inner ((o.base x).1 + 2, (o.base x).2.1, (o.base x).2.2)) ∧
    ((d = 5 ∧ (o.base x).1 = (o.dst d).ks ∧ o.between (o.base x).2.2 (o.dst d).is (o.dst d).ie 0 1 = true ∧
        o.between (o.base x).2.1 (o.dst d).js (o.dst d).je 2 3 = true) ↔
      o.Inner ((o.base x).1 - 1, (o.base x).2.1, (o.base x).2.2)) := by
  obtain ⟨hd, hf, hnear, hb, hl⟩ := hx
  have hl := later d x hl
  have hp := pos_of hn x hnear
  obtain ⟨⟨ti, i1, i2, i3⟩, ⟨tj, j1, j2, j3⟩, ⟨tk, k1, k2, k3⟩, ni, nj, nk⟩ := hp
  have hn2 : 1 < o.nDim := by omega
  have fi := h.fi
  have fj := h.fj hn2
  have ci := h.ci
  have cj := h.cj
  have ck := h.ck
  obtain ⟨g, hg⟩ := h.even
  have bi : ∀ c : ℤ, (d.val ≠ 4 ∧ d.val ≠ 5) → o.beyond d (c, (o.base x).2.1, (o.base x).2.2) := by
    intro c hd1
    fin_cases d <;> simp [beyond] at hd1 hb hd ⊢ <;> omega
  constructor
  · constructor
    · rintro ⟨rfl, q, r, r'⟩
      rw [between_iff] at r r'
      have e3 : o.nDim = 3 := by simp at hd; omega
      rw [if_pos e3] at nk
      have fk := h.fk (by omega)
      simp [dst, e3] at q
      simp [beyond] at hb
      apply inner_of hn (near_of hn _ _ _)
      · intro s; have := r.1.resolve_right (fun t => t s); simp [dst] at this; omega
      · intro s; have := r.2.resolve_right (fun t => t s); simp [dst] at this; omega
      · intro s; have := r'.1.resolve_right (fun t => t s); simp [dst, hn2] at this; omega
      · intro s; have := r'.2.resolve_right (fun t => t s); simp [dst, hn2] at this; omega
      · intro _ _; omega
      · intro _ _; omega
      · omega
      · omega
      · rw [if_pos e3]; omega
    · intro hI
      have e3 : o.nDim = 3 := by
        rcases hn with e | e
        · have := hI.1.1
          rw [if_neg (by omega)] at this
          dsimp only at this
          rw [if_neg (by omega)] at nk
          omega
        · exact e
      have fk := h.fk (by omega)
      rw [if_pos e3] at nk
      have hq := inner_not hI hd hf
      have hd2 : d = 4 := by
        by_contra hne
        by_cases hd1 : d = 5
        · subst hd1; simp [beyond] at hb hq; omega
        · exact hq (bi _ (by have : d.val ≠ 4 := fun e => hne (Fin.ext e); have : d.val ≠ 5 := fun e => hd1 (Fin.ext e); omega))
      subst hd2
      simp [beyond] at hb hq
      have hnI := hI.1.1
      rw [if_pos (by omega)] at hnI
      dsimp only at hnI
      refine ⟨rfl, ?_, ?_, ?_⟩
      · simp [dst, e3]; omega
      · rw [between_iff]
        simp only [dst]; simp
        constructor
        · by_cases s : o.flx 0 = true
          · have := inner_not hI (d := 0) (by simp; omega) s; simp [beyond] at this; left; omega
          · right; simpa using s
        · by_cases s : o.flx 1 = true
          · have := inner_not hI (d := 1) (by simp; omega) s; simp [beyond] at this; left; omega
          · right; simpa using s
      · rw [between_iff]
        simp only [dst]; simp [hn2]
        constructor
        · by_cases s : o.flx 2 = true
          · have := inner_not hI (d := 2) (by simp; omega) s; simp [beyond] at this; left; omega
          · right; simpa using s
        · by_cases s : o.flx 3 = true
          · have := inner_not hI (d := 3) (by simp; omega) s; simp [beyond] at this; left; omega
          · right; simpa using s
  · constructor
    · rintro ⟨rfl, q, r, r'⟩
      rw [between_iff] at r r'
      have e3 : o.nDim = 3 := by simp at hd; omega
      rw [if_pos e3] at nk
      have fk := h.fk (by omega)
      simp [dst, e3] at q
      simp [beyond] at hb
      apply inner_of hn (near_of hn _ _ _)
      · intro s; have := r.1.resolve_right (fun t => t s); simp [dst] at this; omega
      · intro s; have := r.2.resolve_right (fun t => t s); simp [dst] at this; omega
      · intro s; have := r'.1.resolve_right (fun t => t s); simp [dst, hn2] at this; omega
      · intro s; have := r'.2.resolve_right (fun t => t s); simp [dst, hn2] at this; omega
      · intro _ _; omega
      · intro _ _; omega
      · omega
      · omega
      · rw [if_pos e3]; omega
    · intro hI
      have e3 : o.nDim = 3 := by
        rcases hn with e | e
        · have := hI.1.1
          rw [if_neg (by omega)] at this
          dsimp only at this
          rw [if_neg (by omega)] at nk
          omega
        · exact e
      have fk := h.fk (by omega)
      rw [if_pos e3] at nk
      have hq := inner_not hI hd hf
      have hd2 : d = 5 := by
        by_contra hne
        by_cases hd1 : d = 4
        · subst hd1; simp [beyond] at hb hq; omega
        · exact hq (bi _ (by have : d.val ≠ 5 := fun e => hne (Fin.ext e); have : d.val ≠ 4 := fun e => hd1 (Fin.ext e); omega))
      subst hd2
      simp [beyond] at hb hq
      have hnI := hI.1.1
      rw [if_pos (by omega)] at hnI
      dsimp only at hnI
      refine ⟨rfl, ?_, ?_, ?_⟩
      · simp [dst, e3]; omega
      · rw [between_iff]
        simp only [dst]; simp
        constructor
        · by_cases s : o.flx 0 = true
          · have := inner_not hI (d := 0) (by simp; omega) s; simp [beyond] at this; left; omega
          · right; simpa using s
        · by_cases s : o.flx 1 = true
          · have := inner_not hI (d := 1) (by simp; omega) s; simp [beyond] at this; left; omega
          · right; simpa using s
      · rw [between_iff]
        simp only [dst]; simp [hn2]
        constructor
        · by_cases s : o.flx 2 = true
          · have := inner_not hI (d := 2) (by simp; omega) s; simp [beyond] at this; left; omega
          · right; simpa using s
        · by_cases s : o.flx 3 = true
          · have := inner_not hI (d := 3) (by simp; omega) s; simp [beyond] at this; left; omega
          · right; simpa using s

theorem faces4 (h : o.Fits) (d : Fin 6) (x : Z3) (hx : o.LastAt d x) (hd4 : d.val < 4) (e3 : o.nDim = 3) :
    o.between (o.base x).1 (o.dst d).ks (o.dst d).ke 4 5 = true := by
  have hn : o.nDim = 2 ∨ o.nDim = 3 := Or.inr e3
  obtain ⟨hd, hf, hnear, hb, hl⟩ := hx
  have hl := later d x hl
  have hp := pos_of hn x hnear
  obtain ⟨⟨ti, i1, i2, i3⟩, ⟨tj, j1, j2, j3⟩, ⟨tk, k1, k2, k3⟩, ni, nj, nk⟩ := hp
  have hn2 : 1 < o.nDim := by omega
  have fi := h.fi
  have fj := h.fj hn2
  have ci := h.ci
  have cj := h.cj
  have ck := h.ck
  obtain ⟨g, hg⟩ := h.even
  have fk := h.fk (by omega)
  have e : (o.dst d).ks = o.f.ks - o.ng ∧ (o.dst d).ke = o.f.ke + o.ng := by
    fin_cases d <;> simp [dst, e3] at hd4 ⊢
  rw [between_iff, e.1, e.2]
  constructor
  · by_cases s : o.flx 4 = true
    · have := hl.2.2.2.1 (by omega) (by omega) s; left; omega
    · right; simpa using s
  · by_cases s : o.flx 5 = true
    · have := hl.2.2.2.2 (by omega) (by omega) s; left; omega
    · right; simpa using s

/-- For the last boundary that covers a zone, the faces of its block that are read are those that border on zones not set. -/
theorem known_eq (h : o.Fits) (hn : o.nDim = 2 ∨ o.nDim = 3) (d : Fin 6) (x : Z3) (hx : o.LastAt d x) (C : PGrd R ns) :
    o.known d C (o.base x).1 (o.base x).2.1 (o.base x).2.2 = o.fineFaces C (o.base x) := by
  have hn2 : 1 < o.nDim := by omega
  have e3 : ∀ d' : Fin 6, d' = d → 4 ≤ d'.val → 2 < o.nDim := by
    rintro _ rfl q; have := hx.1; omega
  have e3' : o.nDim = 3 → 2 < o.nDim := by omega
  have f1 := faces1 h hn d x hx
  have f2 := faces2 h hn d x hx
  have f3 := faces3 h hn d x hx
  have f4 := faces4 h d x hx
  have up : ∀ n : ℕ, d.val < 4 → (o.base x).1 + (if o.nDim = 3 ∧ o.between (o.base x).1 (o.dst d).ks (o.dst d).ke 4 5 = true then (n : ℤ) else 0) =
      if 2 < o.nDim then (o.base x).1 + (n : ℤ) else (o.base x).1 := by
    intro n hd
    rcases hn with e | e
    · simp [e]
    · rw [if_pos ⟨e, f4 hd e⟩, if_pos (e3' e)]
  clear hx f4
  generalize o.base x = b at *
  unfold known fineFaces
  congr 1 <;> funext n m l <;> dsimp only
  · have c1 : (d = 0 ∧ b.2.2 = (o.dst d).ie - 1 ∧ o.between b.2.1 (o.dst d).js (o.dst d).je 2 3 = true ∧ l = 2 ∧ n ≤ 1 ∧ m ≤ 1) ↔
        (l = 2 ∧ n ≤ 1 ∧ m ≤ 1 ∧ o.Inner (b.1, b.2.1, b.2.2 + 2)) := by rw [← f1.1]; exact ⟨fun ⟨a, b, c, d, e, f⟩ => ⟨d, e, f, a, b, c⟩, fun ⟨d, e, f, a, b, c⟩ => ⟨a, b, c, d, e, f⟩⟩
    have c2 : (d = 1 ∧ b.2.2 = (o.dst d).is ∧ o.between b.2.1 (o.dst d).js (o.dst d).je 2 3 = true ∧ l = 0 ∧ n ≤ 1 ∧ m ≤ 1) ↔
        (l = 0 ∧ n ≤ 1 ∧ m ≤ 1 ∧ o.Inner (b.1, b.2.1, b.2.2 - 1)) := by rw [← f1.2]; exact ⟨fun ⟨a, b, c, d, e, f⟩ => ⟨d, e, f, a, b, c⟩, fun ⟨d, e, f, a, b, c⟩ => ⟨a, b, c, d, e, f⟩⟩
    by_cases q1 : d = 0 ∧ b.2.2 = (o.dst d).ie - 1 ∧ o.between b.2.1 (o.dst d).js (o.dst d).je 2 3 = true ∧ l = 2 ∧ n ≤ 1 ∧ m ≤ 1
    · rw [if_pos q1, if_pos (c1.1 q1), up n (by rw [q1.1]; simp)]
      unfold disp; rw [if_pos hn2]
    · rw [if_neg q1, if_neg (fun q => q1 (c1.2 q))]
      by_cases q2 : d = 1 ∧ b.2.2 = (o.dst d).is ∧ o.between b.2.1 (o.dst d).js (o.dst d).je 2 3 = true ∧ l = 0 ∧ n ≤ 1 ∧ m ≤ 1
      · rw [if_pos q2, if_pos (c2.1 q2), up n (by rw [q2.1]; simp)]
        unfold disp; rw [if_pos hn2, add_zero]
      · rw [if_neg q2, if_neg (fun q => q2 (c2.2 q))]
  · have c1 : (d = 2 ∧ b.2.1 = (o.dst d).je - 1 ∧ o.between b.2.2 (o.dst d).is (o.dst d).ie 0 1 = true ∧ m = 2 ∧ n ≤ 1 ∧ l ≤ 1) ↔
        (m = 2 ∧ n ≤ 1 ∧ l ≤ 1 ∧ o.Inner (b.1, b.2.1 + 2, b.2.2)) := by rw [← f2.1]; exact ⟨fun ⟨a, b, c, d, e, f⟩ => ⟨d, e, f, a, b, c⟩, fun ⟨d, e, f, a, b, c⟩ => ⟨a, b, c, d, e, f⟩⟩
    have c2 : (d = 3 ∧ b.2.1 = (o.dst d).js ∧ o.between b.2.2 (o.dst d).is (o.dst d).ie 0 1 = true ∧ m = 0 ∧ n ≤ 1 ∧ l ≤ 1) ↔
        (m = 0 ∧ n ≤ 1 ∧ l ≤ 1 ∧ o.Inner (b.1, b.2.1 - 1, b.2.2)) := by rw [← f2.2]; exact ⟨fun ⟨a, b, c, d, e, f⟩ => ⟨d, e, f, a, b, c⟩, fun ⟨d, e, f, a, b, c⟩ => ⟨a, b, c, d, e, f⟩⟩
    by_cases q1 : d = 2 ∧ b.2.1 = (o.dst d).je - 1 ∧ o.between b.2.2 (o.dst d).is (o.dst d).ie 0 1 = true ∧ m = 2 ∧ n ≤ 1 ∧ l ≤ 1
    · rw [if_pos q1, if_pos (c1.1 q1), up n (by rw [q1.1]; simp)]
      unfold disp; rw [if_pos hn2]
    · rw [if_neg q1, if_neg (fun q => q1 (c1.2 q))]
      by_cases q2 : d = 3 ∧ b.2.1 = (o.dst d).js ∧ o.between b.2.2 (o.dst d).is (o.dst d).ie 0 1 = true ∧ m = 0 ∧ n ≤ 1 ∧ l ≤ 1
      · rw [if_pos q2, if_pos (c2.1 q2), up n (by rw [q2.1]; simp)]
        unfold disp; rw [if_pos hn2, add_zero]
      · rw [if_neg q2, if_neg (fun q => q2 (c2.2 q))]
  · have c1 : (d = 4 ∧ b.1 = (o.dst d).ke - 1 ∧ o.between b.2.2 (o.dst d).is (o.dst d).ie 0 1 = true ∧
          o.between b.2.1 (o.dst d).js (o.dst d).je 2 3 = true ∧ n = 2 ∧ m ≤ 1 ∧ l ≤ 1) ↔
        (n = 2 ∧ m ≤ 1 ∧ l ≤ 1 ∧ o.Inner (b.1 + 2, b.2.1, b.2.2)) := by rw [← f3.1]; exact ⟨fun ⟨a, b, c, c', d, e, f⟩ => ⟨d, e, f, a, b, c, c'⟩, fun ⟨d, e, f, a, b, c, c'⟩ => ⟨a, b, c, c', d, e, f⟩⟩
    have c2 : (d = 5 ∧ b.1 = (o.dst d).ks ∧ o.between b.2.2 (o.dst d).is (o.dst d).ie 0 1 = true ∧
          o.between b.2.1 (o.dst d).js (o.dst d).je 2 3 = true ∧ n = 0 ∧ m ≤ 1 ∧ l ≤ 1) ↔
        (n = 0 ∧ m ≤ 1 ∧ l ≤ 1 ∧ o.Inner (b.1 - 1, b.2.1, b.2.2)) := by rw [← f3.2]; exact ⟨fun ⟨a, b, c, c', d, e, f⟩ => ⟨d, e, f, a, b, c, c'⟩, fun ⟨d, e, f, a, b, c, c'⟩ => ⟨a, b, c, c', d, e, f⟩⟩
    by_cases q1 : d = 4 ∧ b.1 = (o.dst d).ke - 1 ∧ o.between b.2.2 (o.dst d).is (o.dst d).ie 0 1 = true ∧
          o.between b.2.1 (o.dst d).js (o.dst d).je 2 3 = true ∧ n = 2 ∧ m ≤ 1 ∧ l ≤ 1
    · rw [if_pos q1, if_pos (c1.1 q1)]
      have : 2 < o.nDim := e3 _ q1.1.symm (by simp)
      unfold disp; rw [if_pos hn2, if_pos this]
    · rw [if_neg q1, if_neg (fun q => q1 (c1.2 q))]
      by_cases q2 : d = 5 ∧ b.1 = (o.dst d).ks ∧ o.between b.2.2 (o.dst d).is (o.dst d).ie 0 1 = true ∧
          o.between b.2.1 (o.dst d).js (o.dst d).je 2 3 = true ∧ n = 0 ∧ m ≤ 1 ∧ l ≤ 1
      · rw [if_pos q2, if_pos (c2.1 q2)]
        have : 2 < o.nDim := e3 _ q2.1.symm (by simp)
        unfold disp; rw [if_pos hn2, if_pos this, add_zero]
      · rw [if_neg q2, if_neg (fun q => q2 (c2.2 q))]

/-! ## All boundaries -/

/-- Set by one of the loops `l`. -/
def Cov (o : Ovl R) (l : List (Fin 6)) (x : Z3) : Prop := ∃ d ∈ l, o.near x ∧ o.beyond d x

/-- The cell-centred field. -/
def bcc (u : ConsS R ns) : R × R × R := (u.b1, u.b2, u.b3)

/-- The averages of the faces of `F` around the zone `x`. -/
def avgs (o : Ovl R) (F : Fld R) (x : Z3) : R × R × R :=
  (1/2 * (F.x1 (o.pn x) (o.pm x) (o.pl x) + F.x1 (o.pn x) (o.pm x) (o.pl x + 1)),
   1/2 * (F.x2 (o.pn x) (o.pm x) (o.pl x) + F.x2 (o.pn x) (o.pm x + 1) (o.pl x)),
   1/2 * (F.x3 (o.pn x) (o.pm x) (o.pl x) + F.x3 (o.pn x + 1) (o.pm x) (o.pl x)))

/-- No face known. -/
def noFld : Fld R := ⟨fun _ _ _ => 0, fun _ _ _ => 0, fun _ _ _ => 0⟩

/-- The state when the loops `A` are done and the loops `T` are still to come. -/
structure Inv (o : Ovl R) (P C B : PGrd R ns) (A T : List (Fin 6)) : Prop where
  k1 : ∀ x, ¬ o.Cov A x → B.B1 x = C.B1 x
  k2 : ∀ x, ¬ o.Cov A x → B.B2 x = C.B2 x
  k3 : ∀ x, ¬ o.Cov A x → B.B3 x = C.B3 x
  ku : ∀ x, ¬ o.Cov A x → bcc (B.U x) = bcc (C.U x)
  z2 : ∀ x, (∀ d ∈ A, o.beyond d x → d.val < 2) → o.Cov A x → o.pm x = 0 → B.B2 x = outer2 o.cf (o.coarseFld P (o.coarseOf x)) noFld 0 1 (o.pn x) (o.pl x)
  z3 : ∀ x, (∀ d ∈ A, o.beyond d x → d.val < 4) → o.Cov A x → o.pn x = 0 → B.B3 x = outer3 o.cf (o.coarseFld P (o.coarseOf x)) noFld 0 1 (o.pm x) (o.pl x)
  f1 : ∀ x, o.Cov A x → ¬ o.Cov T x → B.B1 x = if o.Inner (x.1, x.2.1, x.2.2 - 1) then C.B1 x else (o.blockFld P C x).x1 (o.pn x) (o.pm x) (o.pl x)
  f2 : ∀ x, o.Cov A x → ¬ o.Cov T x → B.B2 x = if o.Inner (x.1, x.2.1 - 1, x.2.2) then C.B2 x else (o.blockFld P C x).x2 (o.pn x) (o.pm x) (o.pl x)
  f3 : ∀ x, o.Cov A x → ¬ o.Cov T x → B.B3 x = if o.Inner (x.1 - 1, x.2.1, x.2.2) then C.B3 x else (o.blockFld P C x).x3 (o.pn x) (o.pm x) (o.pl x)
  fu : ∀ x, o.Cov A x → ¬ o.Cov T x → bcc (B.U x) = o.avgs (o.blockFld P C x) x

theorem mem_dims (d : Fin 6) : d ∈ o.dims ↔ d.val < 2 * o.nDim ∧ o.flx d = true := by simp [dims, List.mem_filter]

theorem dims_sorted : o.dims.Pairwise (· < ·) := by
  unfold dims
  exact List.Pairwise.filter _ (List.pairwise_lt_finRange 6)

/-- The zone behind a ghost zone is left alone only across the boundary. -/
theorem behind1 (h : o.Fits) (hn : o.nDim = 2 ∨ o.nDim = 3) (d : Fin 6) (x : Z3) (hx : o.LastAt d x) :
    o.Inner (x.1, x.2.1, x.2.2 - 1) ↔ d = 1 ∧ x.2.2 = o.f.ie + 1 := by
  obtain ⟨hd, hf, hnear, hb, hl⟩ := hx
  have hl := later d x hl
  have hp := pos_of hn x hnear
  obtain ⟨-, -, -, ni, nj, nk⟩ := hp
  have hn2 : 1 < o.nDim := by omega
  have fi := h.fi
  have fj := h.fj hn2
  have ci := h.ci
  have cj := h.cj
  have ck := h.ck
  have nk' : if o.nDim = 3 then o.f.ks - o.ng ≤ x.1 ∧ x.1 ≤ o.f.ke + o.ng else x.1 = o.f.ks := by
    split_ifs with e
    · rw [if_pos e] at nk; exact nk
    · rw [if_neg e] at nk; exact nk.1
  constructor
  · intro hI
    have hq := inner_not hI hd hf
    have e : d = 1 := by
      by_contra hne
      apply hq
      fin_cases d <;> simp [beyond] at hne hb ⊢ <;> omega
    subst e
    simp [beyond] at hb hq
    exact ⟨rfl, by omega⟩
  · rintro ⟨rfl, q⟩
    apply inner_of hn (near_of hn _ nj nk')
    · intro _; omega
    · intro _; omega
    · exact fun s => hl.2.1 (by simp) hn2 s
    · exact fun s => hl.2.2.1 (by simp) hn2 s
    · exact fun e s => hl.2.2.2.1 (by simp) (by omega) s
    · exact fun e s => hl.2.2.2.2 (by simp) (by omega) s
    · omega

theorem behind2 (h : o.Fits) (hn : o.nDim = 2 ∨ o.nDim = 3) (d : Fin 6) (x : Z3) (hx : o.LastAt d x) :
    o.Inner (x.1, x.2.1 - 1, x.2.2) ↔ d = 3 ∧ x.2.1 = o.f.je + 1 ∧ o.inI x := by
  obtain ⟨hd, hf, hnear, hb, hl⟩ := hx
  have hl := later d x hl
  have hp := pos_of hn x hnear
  obtain ⟨-, -, -, ni, nj, nk⟩ := hp
  have hn2 : 1 < o.nDim := by omega
  have fi := h.fi
  have fj := h.fj hn2
  have ci := h.ci
  have cj := h.cj
  have ck := h.ck
  have nk' : if o.nDim = 3 then o.f.ks - o.ng ≤ x.1 ∧ x.1 ≤ o.f.ke + o.ng else x.1 = o.f.ks := by
    split_ifs with e
    · rw [if_pos e] at nk; exact nk
    · rw [if_neg e] at nk; exact nk.1
  constructor
  · intro hI
    have hq := inner_not hI hd hf
    have e : d = 3 := by
      by_contra hne
      apply hq
      fin_cases d <;> simp [beyond] at hne hb ⊢ <;> omega
    subst e
    simp [beyond] at hb hq
    refine ⟨rfl, by omega, fun s => ?_, fun s => ?_⟩
    · have := inner_not hI (d := 0) (by simp; omega) s; simpa [beyond] using this
    · have := inner_not hI (d := 1) (by simp; omega) s; simpa [beyond] using this
  · rintro ⟨rfl, q, r⟩
    apply inner_of hn (near_of hn ni _ nk') r.1 r.2
    · intro _; omega
    · intro _; omega
    · exact fun e s => hl.2.2.2.1 (by simp) (by omega) s
    · exact fun e s => hl.2.2.2.2 (by simp) (by omega) s
    · omega

theorem behind3 (h : o.Fits) (hn : o.nDim = 2 ∨ o.nDim = 3) (d : Fin 6) (x : Z3) (hx : o.LastAt d x) :
    o.Inner (x.1 - 1, x.2.1, x.2.2) ↔ d = 5 ∧ x.1 = o.f.ke + 1 ∧ o.inI x ∧ o.inJ x := by
  obtain ⟨hd, hf, hnear, hb, hl⟩ := hx
  have hl := later d x hl
  have hp := pos_of hn x hnear
  obtain ⟨-, -, -, ni, nj, nk⟩ := hp
  have hn2 : 1 < o.nDim := by omega
  have fi := h.fi
  have fj := h.fj hn2
  have ci := h.ci
  have cj := h.cj
  have ck := h.ck
  have nk' : if o.nDim = 3 then o.f.ks - o.ng ≤ x.1 ∧ x.1 ≤ o.f.ke + o.ng else x.1 = o.f.ks := by
    split_ifs with e
    · rw [if_pos e] at nk; exact nk
    · rw [if_neg e] at nk; exact nk.1
  constructor
  · intro hI
    have hq := inner_not hI hd hf
    have e3 : o.nDim = 3 := by
      by_contra e
      have := hI.1.1
      rw [if_neg (by omega)] at this
      dsimp only at this
      rw [if_neg e] at nk'
      omega
    have e : d = 5 := by
      by_contra hne
      apply hq
      fin_cases d <;> simp [beyond] at hne hb ⊢ <;> omega
    subst e
    simp [beyond] at hb hq
    refine ⟨rfl, by omega, ⟨fun s => ?_, fun s => ?_⟩, fun s => ?_, fun s => ?_⟩
    · have := inner_not hI (d := 0) (by simp; omega) s; simpa [beyond] using this
    · have := inner_not hI (d := 1) (by simp; omega) s; simpa [beyond] using this
    · have := inner_not hI (d := 2) (by simp; omega) s; simpa [beyond] using this
    · have := inner_not hI (d := 3) (by simp; omega) s; simpa [beyond] using this
  · rintro ⟨rfl, q, r, r'⟩
    have e3 : o.nDim = 3 := by simp at hd; omega
    have fk := h.fk (by omega)
    apply inner_of hn (near_of hn ni nj _) r.1 r.2 r'.1 r'.2
    · intro _ _; omega
    · intro _ _; omega
    · rw [if_pos e3]; omega

theorem inv_step (h : o.Fits) (hn : o.nDim = 2 ∨ o.nDim = 3) (P C B B' : PGrd R ns) (A : List (Fin 6)) (d : Fin 6) (T : List (Fin 6))
    (hl : o.dims = A ++ d :: T) (hI : Inv o P C B A (d :: T)) (hB : Done (o := o) d P B B' (fun x => o.near x ∧ o.beyond d x)) :
    Inv o P C B' (A ++ [d]) T := by
  have hn2 : 1 < o.nDim := by omega
  have hs := dims_sorted (o := o)
  rw [hl, List.pairwise_append] at hs
  obtain ⟨-, hs2, hs3⟩ := hs
  have hlt : ∀ a ∈ A, a < d := fun a ha => hs3 a ha d List.mem_cons_self
  have hgt : ∀ e ∈ T, d < e := (List.pairwise_cons.1 hs2).1
  have hmem : ∀ e, e ∈ A ∨ e = d ∨ e ∈ T ↔ e.val < 2 * o.nDim ∧ o.flx e = true := by
    intro e; rw [← mem_dims, hl]; simp
  have hd := (hmem d).1 (Or.inr (Or.inl rfl))
  have hcov : ∀ x, o.Cov (A ++ [d]) x ↔ o.Cov A x ∨ (o.near x ∧ o.beyond d x) := by
    intro x; unfold Cov; simp only [List.mem_append, List.mem_singleton, or_and_right, exists_or, exists_eq_left]
  have hcov' : ∀ x, o.Cov (d :: T) x ↔ (o.near x ∧ o.beyond d x) ∨ o.Cov T x := by
    intro x; unfold Cov; simp only [List.mem_cons, or_and_right, exists_or, exists_eq_left]
  have hA1 : ∀ x, ¬ (o.near x ∧ o.beyond d x) → B'.B1 x = B.B1 x := fun x hx => by rw [hB.b1, if_neg (fun q => hx q.1)]
  have hA2 : ∀ x, ¬ (o.near x ∧ o.beyond d x) → B'.B2 x = B.B2 x := fun x hx => by rw [hB.b2, if_neg (fun q => hx q.1)]
  have hA3 : ∀ x, ¬ (o.near x ∧ o.beyond d x) → B'.B3 x = B.B3 x := fun x hx => by rw [hB.b3, if_neg (fun q => hx q.1)]
  have hAu : ∀ x, ¬ (o.near x ∧ o.beyond d x) → bcc (B'.U x) = bcc (B.U x) := fun x hx => by
    unfold bcc; rw [hB.u1, hB.u2, hB.u3, if_neg hx, if_neg hx, if_neg hx]
  have hlast : ∀ x, (o.near x ∧ o.beyond d x) → ¬ o.Cov T x → o.LastAt d x := by
    intro x hx ht
    refine ⟨hd.1, hd.2, hx.1, hx.2, fun e he h1 h2 h3 => ht ⟨e, ?_, hx.1, h3⟩⟩
    rcases (hmem e).2 ⟨h1, h2⟩ with q | q | q
    · have := hlt e q; exact absurd he (by omega)
    · exact absurd he (by rw [q]; omega)
    · exact q
  have fi := h.fi
  have ci := h.ci
  have fj := h.fj hn2
  have cj := h.cj
  have ck := h.ck
  have fk := h.fk
  -- what the loop reads is what the child held
  have hread : ∀ x, o.known d B (o.base x).1 (o.base x).2.1 (o.base x).2.2 = o.known d C (o.base x).1 (o.base x).2.1 (o.base x).2.2 := by
    intro x
    apply known_congr hn2
    · intro z hz
      apply hI.k1
      rintro ⟨a, ha, -, hb⟩
      have hl := hlt a ha
      rcases hz with ⟨rfl, q⟩ | ⟨rfl, q⟩ <;> fin_cases a <;> simp at hl <;> simp [beyond] at hb <;> omega
    · intro z hz hi
      apply hI.k2
      rintro ⟨a, ha, -, hb⟩
      have hl := hlt a ha
      have hf := ((hmem a).1 (Or.inl ha)).2
      have i1 := hi.1
      have i2 := hi.2
      rcases hz with ⟨rfl, q⟩ | ⟨rfl, q⟩ <;> fin_cases a <;> simp at hl hf <;> simp [beyond] at hb <;> (try simp [hf] at i1 i2) <;> omega
    · intro z hz hi hj
      apply hI.k3
      rintro ⟨a, ha, -, hb⟩
      have hl := hlt a ha
      have hf := ((hmem a).1 (Or.inl ha)).2
      have i1 := hi.1
      have i2 := hi.2
      have j1 := hj.1
      have j2 := hj.2
      rcases hz with ⟨rfl, q⟩ | ⟨rfl, q⟩ <;> fin_cases a <;> simp at hl hf <;> simp [beyond] at hb <;> (try simp [hf] at i1 i2 j1 j2) <;> omega
  have hdim : ∀ x, o.LastAt d x → o.dimFld d P B x = o.blockFld P C x := by
    intro x hx
    unfold dimFld blockFld
    rw [hread x, known_eq h hn d x hx]
  constructor
  · intro x hx; rw [hcov] at hx; push Not at hx; rw [hA1 x (fun q => hx.2 q.1 q.2)]; exact hI.k1 x hx.1
  · intro x hx; rw [hcov] at hx; push Not at hx; rw [hA2 x (fun q => hx.2 q.1 q.2)]; exact hI.k2 x hx.1
  · intro x hx; rw [hcov] at hx; push Not at hx; rw [hA3 x (fun q => hx.2 q.1 q.2)]; exact hI.k3 x hx.1
  · intro x hx; rw [hcov] at hx; push Not at hx; rw [hAu x (fun q => hx.2 q.1 q.2)]; exact hI.ku x hx.1
  · intro x hA hx hm
    by_cases hc : o.near x ∧ o.beyond d x
    · have hd2 : d.val < 2 := hA d (by simp) hc.2
      have n3 : d ≠ 3 := by rintro rfl; simp at hd2
      rw [hB.b2, if_pos ⟨hc, Or.inl n3⟩, hm]
      unfold dimFld
      rw [(proFld_outer _ _ _ _ _ _ _ _).2.2.1]
      have n2 : d ≠ 2 := by rintro rfl; simp at hd2
      unfold outer2 noFld known
      simp [n2, n3]
    · rw [hA2 x hc]
      exact hI.z2 x (fun e he => hA e (List.mem_append_left _ he)) (((hcov x).1 hx).resolve_right hc) hm
  · intro x hA hx hm
    by_cases hc : o.near x ∧ o.beyond d x
    · have hd2 : d.val < 4 := hA d (by simp) hc.2
      have n5 : d ≠ 5 := by rintro rfl; simp at hd2
      rw [hB.b3, if_pos ⟨hc, Or.inl n5⟩, hm]
      unfold dimFld
      rw [(proFld_outer _ _ _ _ _ _ _ _).2.2.2.2.1]
      have n4 : d ≠ 4 := by rintro rfl; simp at hd2
      unfold outer3 noFld known
      simp [n4, n5]
    · rw [hA3 x hc]
      exact hI.z3 x (fun e he => hA e (List.mem_append_left _ he)) (((hcov x).1 hx).resolve_right hc) hm
  · intro x hx ht
    by_cases hc : o.near x ∧ o.beyond d x
    · have hL := hlast x hc ht
      rw [hB.b1, hdim x hL]
      simp only [behind1 h hn d x hL]
      by_cases q : d = 1 ∧ x.2.2 = o.f.ie + 1
      · rw [if_pos q, if_neg (by rintro ⟨-, a | a⟩; exacts [a q.1, a (by rw [q.1, q.2]; simp [dst])])]
        apply hI.k1
        rintro ⟨a, ha, -, hb⟩
        have hl := hlt a ha
        obtain ⟨rfl, q⟩ := q
        fin_cases a <;> simp at hl
        simp [beyond] at hb
        have := h.fi
        have := h.ci
        omega
      · rw [if_neg q, if_pos]
        refine ⟨hc, ?_⟩
        by_contra hne
        push Not at hne
        apply q
        refine ⟨hne.1, ?_⟩
        rw [hne.2, hne.1]; simp [dst]
    · rw [hA1 x hc]
      exact hI.f1 x (((hcov x).1 hx).resolve_right hc) (by rw [hcov']; exact fun q => q.elim hc ht)
  · intro x hx ht
    by_cases hc : o.near x ∧ o.beyond d x
    · have hL := hlast x hc ht
      rw [hB.b2, hdim x hL]
      simp only [behind2 h hn d x hL]
      by_cases q : d = 3 ∧ x.2.1 = o.f.je + 1
      · rw [if_neg (by rintro ⟨-, a | a⟩; exacts [a q.1, a (by rw [q.1, q.2]; simp [dst])])]
        have fj := h.fj hn2
        have cj := h.cj
        obtain ⟨rfl, q⟩ := q
        have hiff : o.Cov A x ↔ ¬ o.inI x := by
          constructor
          · rintro ⟨a, ha, -, hb⟩ ⟨i1, i2⟩
            have hl := hlt a ha
            have hf := ((hmem a).1 (Or.inl ha)).2
            fin_cases a <;> simp at hl hf <;> simp [beyond] at hb <;> (try simp [hf] at i1 i2) <;> omega
          · intro hi
            by_contra hcA
            apply hi
            have key : ∀ e : Fin 6, e.val < 2 → o.flx e = true → ¬ o.beyond e x := by
              intro e he hf hb
              rcases (hmem e).2 ⟨by omega, hf⟩ with q | q | q
              · exact hcA ⟨e, q, hc.1, hb⟩
              · rw [q] at he; simp at he
              · have := hgt e q; simp [Fin.lt_def] at this; omega
            constructor
            · intro s; have := key 0 (by simp) s; simpa [beyond] using this
            · intro s; have := key 1 (by simp) s; simpa [beyond] using this
        by_cases hcA : o.Cov A x
        · have hni := hiff.1 hcA
          rw [if_neg (fun t => hni t.2.2)]
          obtain ⟨⟨ti, i1, i2, i3⟩, ⟨tj, j1, j2, j3⟩, -⟩ := pos_of hn x hc.1
          have hm : o.pm x = 0 := by unfold pm; omega
          rw [hI.z2 x _ hcA hm, ← hdim x hL, hm]
          · unfold dimFld
            rw [(proFld_outer _ _ _ _ _ _ _ _).2.2.1]
            have nb : ¬ o.between (o.base x).2.2 (o.dst 3).is (o.dst 3).ie 0 1 = true := by
              intro hb
              have := between_I (d := 3) (by decide) hb (l := o.pl x) (by unfold pl; omega) x.1 x.2.1
              rw [show (o.base x).2.2 + (o.pl x : ℤ) = x.2.2 by unfold pl; omega] at this
              exact hni this
            unfold outer2 noFld known
            simp [nb]
          · intro a ha hb
            have hl := hlt a ha
            fin_cases a <;> simp at hl ⊢
            simp [beyond] at hb; omega
        · have hi : o.inI x := by by_contra hi; exact hcA (hiff.2 hi)
          rw [if_pos ⟨rfl, q, hi⟩]
          exact hI.k2 x hcA
      · rw [if_neg (show ¬ (d = 3 ∧ x.2.1 = o.f.je + 1 ∧ o.inI x) from fun t => q ⟨t.1, t.2.1⟩), if_pos]
        refine ⟨hc, ?_⟩
        by_contra hne
        push Not at hne
        apply q
        refine ⟨hne.1, ?_⟩
        rw [hne.2, hne.1]; simp [dst]
    · rw [hA2 x hc]
      exact hI.f2 x (((hcov x).1 hx).resolve_right hc) (by rw [hcov']; exact fun q => q.elim hc ht)
  · intro x hx ht
    by_cases hc : o.near x ∧ o.beyond d x
    · have hL := hlast x hc ht
      rw [hB.b3, hdim x hL]
      simp only [behind3 h hn d x hL]
      by_cases q : d = 5 ∧ x.1 = o.f.ke + 1
      · rw [if_neg (by rintro ⟨-, a | a⟩; exacts [a q.1, a (by rw [q.1, q.2]; simp [dst])])]
        obtain ⟨rfl, q⟩ := q
        have e3 : o.nDim = 3 := by have := hd.1; simp at this; omega
        have fk := h.fk (by omega)
        have ck := h.ck
        have hiff : o.Cov A x ↔ ¬ (o.inI x ∧ o.inJ x) := by
          constructor
          · rintro ⟨a, ha, -, hb⟩ ⟨⟨i1, i2⟩, j1, j2⟩
            have hl := hlt a ha
            have hf := ((hmem a).1 (Or.inl ha)).2
            fin_cases a <;> simp at hl hf <;> simp [beyond] at hb <;> (try simp [hf] at i1 i2 j1 j2) <;> omega
          · intro hi
            by_contra hcA
            apply hi
            have key : ∀ e : Fin 6, e.val < 4 → o.flx e = true → ¬ o.beyond e x := by
              intro e he hf hb
              rcases (hmem e).2 ⟨by omega, hf⟩ with q | q | q
              · exact hcA ⟨e, q, hc.1, hb⟩
              · rw [q] at he; simp at he
              · have := hgt e q; simp [Fin.lt_def] at this; omega
            refine ⟨⟨?_, ?_⟩, ?_, ?_⟩
            · intro s; have := key 0 (by simp) s; simpa [beyond] using this
            · intro s; have := key 1 (by simp) s; simpa [beyond] using this
            · intro s; have := key 2 (by simp) s; simpa [beyond] using this
            · intro s; have := key 3 (by simp) s; simpa [beyond] using this
        by_cases hcA : o.Cov A x
        · have hni := hiff.1 hcA
          rw [if_neg (fun t => hni t.2.2)]
          obtain ⟨⟨ti, i1, i2, i3⟩, ⟨tj, j1, j2, j3⟩, ⟨tk, k1, k2, k3⟩, -⟩ := pos_of hn x hc.1
          have hm : o.pn x = 0 := by unfold pn; omega
          rw [hI.z3 x _ hcA hm, ← hdim x hL, hm]
          · unfold dimFld
            rw [(proFld_outer _ _ _ _ _ _ _ _).2.2.2.2.1]
            have nb : ¬ (o.between (o.base x).2.2 (o.dst 5).is (o.dst 5).ie 0 1 = true ∧ o.between (o.base x).2.1 (o.dst 5).js (o.dst 5).je 2 3 = true) := by
              rintro ⟨hb, hb'⟩
              have t1 := between_I (d := 5) (by decide) hb (l := o.pl x) (by unfold pl; omega) x.1 x.2.1
              rw [show (o.base x).2.2 + (o.pl x : ℤ) = x.2.2 by unfold pl; omega] at t1
              have t2 := between_J hn2 (d := 5) (by decide) hb' (m := o.pm x) (by unfold pm; omega) x.1 x.2.2
              rw [show (o.base x).2.1 + (o.pm x : ℤ) = x.2.1 by unfold pm; omega] at t2
              exact hni ⟨t1, t2⟩
            have k0 : (o.known 5 B (o.base x).1 (o.base x).2.1 (o.base x).2.2).x3 0 0 0 = 0 := by
              unfold known
              dsimp only
              exact (if_neg (fun a => absurd a.1 (by decide))).trans (if_neg (fun b => nb ⟨b.2.2.1, b.2.2.2.1⟩))
            unfold outer3 noFld
            rw [k0, if_pos rfl, if_pos rfl]
          · intro a ha hb
            have hl := hlt a ha
            fin_cases a <;> simp at hl ⊢
            simp [beyond] at hb; omega
        · have hi : o.inI x ∧ o.inJ x := by by_contra hi; exact hcA (hiff.2 hi)
          rw [if_pos ⟨rfl, q, hi⟩]
          exact hI.k3 x hcA
      · rw [if_neg (show ¬ (d = 5 ∧ x.1 = o.f.ke + 1 ∧ o.inI x ∧ o.inJ x) from fun t => q ⟨t.1, t.2.1⟩), if_pos]
        refine ⟨hc, ?_⟩
        by_contra hne
        push Not at hne
        apply q
        refine ⟨hne.1, ?_⟩
        rw [hne.2, hne.1]; simp [dst]
    · rw [hA3 x hc]
      exact hI.f3 x (((hcov x).1 hx).resolve_right hc) (by rw [hcov']; exact fun q => q.elim hc ht)
  · intro x hx ht
    by_cases hc : o.near x ∧ o.beyond d x
    · have hL := hlast x hc ht
      unfold bcc avgs
      rw [hB.u1, hB.u2, hB.u3, if_pos hc, if_pos hc, if_pos hc, hdim x hL]
    · rw [hAu x hc]
      exact hI.fu x (((hcov x).1 hx).resolve_right hc) (by rw [hcov']; exact fun q => q.elim hc ht)

theorem recv_inv (h : o.Fits) (hn : o.nDim = 2 ∨ o.nDim = 3) (hm : o.cf.mhd = true) (bad : ConsS R ns → Bool) (P C : PGrd R ns) (G : Fin 3 → Z3 → Cell R ns)
    (A T : List (Fin 6)) (hl : o.dims = A ++ T) :
    Inv o P C (A.foldl (o.recv1 bad) ⟨C, G, o.send P⟩).B A T ∧ (A.foldl (o.recv1 bad) ⟨C, G, o.send P⟩).rest = T.flatMap (o.send1 P) := by
  induction A using List.reverseRecOn generalizing T with
  | nil =>
    rw [List.nil_append] at hl
    constructor
    · have hc : ∀ x, ¬ o.Cov [] x := by intro x; unfold Cov; simp
      constructor <;> intros <;> first | rfl | (exfalso; apply hc; assumption)
    · rw [List.foldl_nil, ← hl]; rfl
  | append_singleton A d ih =>
    rw [List.append_assoc, List.singleton_append] at hl
    obtain ⟨ih1, ih2⟩ := ih (d :: T) hl
    have hd : d.val < 2 * o.nDim := ((mem_dims d).1 (by rw [hl]; simp)).1
    rw [List.foldl_append, List.foldl_cons, List.foldl_nil]
    generalize A.foldl (o.recv1 bad) ⟨C, G, o.send P⟩ = s at *
    have hlen : (o.send1 P d).length = (loop (o.gz d)).length := by
      unfold send1; rw [List.length_map, loop_src h d hd, List.length_map]
    rw [List.flatMap_cons] at ih2
    have ht : s.rest.take (loop (o.gz d)).length = o.send1 P d := by rw [ih2]; exact List.take_left' hlen
    constructor
    · apply inv_step h hn P C s.B _ A d T hl ih1
      have := blocks_done h (by omega) hm bad d hd P (s.G (gid d)) s.B (o.blocks d) (fun p hp => hp)
      simp only [covered h d hd] at this
      unfold recv1
      dsimp only
      rw [ht]
      exact this
    · unfold recv1
      dsimp only
      rw [ih2]; exact List.drop_left' hlen

/-! ## Theorems -/

/-- **C117.**  Field after prolongation, in two and three dimensions: every face on the lower side of a ghost zone beyond a boundary between
levels gets the value that the prolongation operator (C31) computes for the block of zones of the child that share a zone of the parent, from the
parent's field around it and the child's own field on the faces of the block that border on zones that are not set; the cell-centred field of every
such zone is the average of its faces; all other faces, in particular those on the boundary of the overlap itself, and the field of all other
zones, are left alone. -/
theorem prolongate_field (h : o.Fits) (hn : o.nDim = 2 ∨ o.nDim = 3) (hm : o.cf.mhd = true) (bad : ConsS R ns → Bool) (G : Fin 3 → Z3 → Cell R ns)
    (P C : PGrd R ns) (x : Z3) :
    ((o.prolongate bad G P C).B1 x =
      if o.Ghost x ∧ ¬ o.Inner (x.1, x.2.1, x.2.2 - 1) then (o.blockFld P C x).x1 (o.pn x) (o.pm x) (o.pl x) else C.B1 x) ∧
    ((o.prolongate bad G P C).B2 x =
      if o.Ghost x ∧ ¬ o.Inner (x.1, x.2.1 - 1, x.2.2) then (o.blockFld P C x).x2 (o.pn x) (o.pm x) (o.pl x) else C.B2 x) ∧
    ((o.prolongate bad G P C).B3 x =
      if o.Ghost x ∧ ¬ o.Inner (x.1 - 1, x.2.1, x.2.2) then (o.blockFld P C x).x3 (o.pn x) (o.pm x) (o.pl x) else C.B3 x) ∧
    bcc ((o.prolongate bad G P C).U x) = if o.Ghost x then o.avgs (o.blockFld P C x) x else bcc (C.U x) := by
  have hI := (recv_inv h hn hm bad P C G o.dims [] (by simp)).1
  have e : o.Cov o.dims x ↔ o.Ghost x := by
    unfold Ghost Cov
    constructor
    · rintro ⟨d, hd, h1, h2⟩; exact ⟨h1, d, ((mem_dims d).1 hd).1, ((mem_dims d).1 hd).2, h2⟩
    · rintro ⟨h1, d, hd, hf, h2⟩; exact ⟨d, (mem_dims d).2 ⟨hd, hf⟩, h1, h2⟩
  have ht : ¬ o.Cov [] x := by unfold Cov; simp
  unfold prolongate
  by_cases hg : o.Ghost x
  · have hc := e.2 hg
    rw [hI.f1 x hc ht, hI.f2 x hc ht, hI.f3 x hc ht, hI.fu x hc ht]
    refine ⟨?_, ?_, ?_, by rw [if_pos hg]⟩
    · by_cases q : o.Inner (x.1, x.2.1, x.2.2 - 1)
      · rw [if_pos q, if_neg (fun t => t.2 q)]
      · rw [if_neg q, if_pos ⟨hg, q⟩]
    · by_cases q : o.Inner (x.1, x.2.1 - 1, x.2.2)
      · rw [if_pos q, if_neg (fun t => t.2 q)]
      · rw [if_neg q, if_pos ⟨hg, q⟩]
    · by_cases q : o.Inner (x.1 - 1, x.2.1, x.2.2)
      · rw [if_pos q, if_neg (fun t => t.2 q)]
      · rw [if_neg q, if_pos ⟨hg, q⟩]
  · have hc : ¬ o.Cov o.dims x := fun q => hg (e.1 q)
    rw [if_neg (fun t => hg t.1), if_neg (fun t => hg t.1), if_neg (fun t => hg t.1), if_neg hg]
    exact ⟨hI.k1 x hc, hI.k2 x hc, hI.k3 x hc, hI.ku x hc⟩

/-- The hypotheses of `prolongate_field`, and a corner ghost zone, a ghost zone whose lower x1-face borders on an active zone, and an active zone. -/
example : ({ cube with cf := ⟨false, true, false⟩ } : Ovl ℚ).Fits ∧ ({ cube with cf := ⟨false, true, false⟩ } : Ovl ℚ).Ghost (0, 0, 0) ∧
    (({ cube with cf := ⟨false, true, false⟩ } : Ovl ℚ).Ghost (4, 4, 8) ∧ ({ cube with cf := ⟨false, true, false⟩ } : Ovl ℚ).Inner (4, 4, 8 - 1)) ∧
    ¬ ({ cube with cf := ⟨false, true, false⟩ } : Ovl ℚ).Ghost (4, 5, 4) := by
  refine ⟨?_, by decide, by decide, by decide⟩
  exact ⟨Or.inr (Or.inr rfl), ⟨2, rfl⟩, by decide, by decide, by decide, by decide, by decide, by decide, by decide, by decide⟩

end Ovl
end Athena.Smr
