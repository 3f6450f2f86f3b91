import Verif.Smr.ProlongFld

/-!
# C118: divergence of the field in the ghost zones of a refined Grid after `Prolongate`

Specification: `divB`, `Matched`, `Known`.
-/

namespace Athena.Smr

variable {R : Type*} [Field R] [LinearOrder R] {ns : Nat}

namespace Ovl
variable (o : Ovl R)

/-! ## Specification -/

/-- Discrete divergence in zone `x` of a Grid with zones of size `d1, d2, d3`. -/
def divB (B : PGrd R ns) (d1 d2 d3 : R) (x : Z3) : R :=
  (B.B1 (x.1, x.2.1, x.2.2 + 1) - B.B1 x) / d1 + (B.B2 (x.1, x.2.1 + 1, x.2.2) - B.B2 x) / d2 +
    if o.nDim = 3 then (B.B3 (x.1 + 1, x.2.1, x.2.2) - B.B3 x) / d3 else 0

/-- Mean over the four fine faces that make up a coarse one (in 2D two of them, counted twice). -/
def mean4 (f : ℕ → ℕ → R) : R := (f 0 0 + f 0 1 + f 1 0 + f 1 1) / 4

/-- Where the block of `x` borders on zones that prolongation does not set, the parent's field is the mean of the child's. -/
structure Matched (P C : PGrd R ns) (x : Z3) : Prop where
  l1 : o.Inner ((o.base x).1, (o.base x).2.1, (o.base x).2.2 - 1) → (mean4 fun n m => C.B1 (o.disp (o.base x) n m 0)) = P.B1 (o.coarseOf x)
  r1 : o.Inner ((o.base x).1, (o.base x).2.1, (o.base x).2.2 + 2) → (mean4 fun n m => C.B1 (o.disp (o.base x) n m 2)) = P.B1 (o.disp (o.coarseOf x) 0 0 1)
  l2 : o.Inner ((o.base x).1, (o.base x).2.1 - 1, (o.base x).2.2) → (mean4 fun n l => C.B2 (o.disp (o.base x) n 0 l)) = P.B2 (o.coarseOf x)
  r2 : o.Inner ((o.base x).1, (o.base x).2.1 + 2, (o.base x).2.2) → (mean4 fun n l => C.B2 (o.disp (o.base x) n 2 l)) = P.B2 (o.disp (o.coarseOf x) 0 1 0)
  l3 : o.Inner ((o.base x).1 - 1, (o.base x).2.1, (o.base x).2.2) → (mean4 fun m l => C.B3 (o.disp (o.base x) 0 m l)) = P.B3 (o.coarseOf x)
  r3 : o.Inner ((o.base x).1 + 2, (o.base x).2.1, (o.base x).2.2) → (mean4 fun m l => C.B3 (o.disp (o.base x) 2 m l)) = P.B3 (o.disp (o.coarseOf x) 1 0 0)

/-- There the first of the child's values is not exactly 0 (see C31: 0 stands for "not known"). -/
structure Known (C : PGrd R ns) (x : Z3) : Prop where
  l1 : o.Inner ((o.base x).1, (o.base x).2.1, (o.base x).2.2 - 1) → C.B1 (o.base x) ≠ 0
  r1 : o.Inner ((o.base x).1, (o.base x).2.1, (o.base x).2.2 + 2) → C.B1 (o.disp (o.base x) 0 0 2) ≠ 0
  l2 : o.Inner ((o.base x).1, (o.base x).2.1 - 1, (o.base x).2.2) → C.B2 (o.base x) ≠ 0
  r2 : o.Inner ((o.base x).1, (o.base x).2.1 + 2, (o.base x).2.2) → C.B2 (o.disp (o.base x) 0 2 0) ≠ 0
  l3 : o.Inner ((o.base x).1 - 1, (o.base x).2.1, (o.base x).2.2) → C.B3 (o.base x) ≠ 0
  r3 : o.Inner ((o.base x).1 + 2, (o.base x).2.1, (o.base x).2.2) → C.B3 (o.disp (o.base x) 2 0 0) ≠ 0

variable {o}

/-! ## Blocks -/

/-- All zones of a block are alike. -/
theorem alike (h : o.Fits) (hn : o.nDim = 2 ∨ o.nDim = 3) (a b : Z3) (e : o.base a = o.base b) (hk : o.nDim = 3 ∨ a.1 = b.1) :
    (o.near a ↔ o.near b) ∧ (o.Ghost a ↔ o.Ghost b) ∧ (o.Inner a ↔ o.Inner b) := by
  have hn2 : 1 < o.nDim := by omega
  have fi := h.fi
  have fj := h.fj hn2
  have fk := h.fk
  obtain ⟨g, hg⟩ := h.even
  unfold base at e
  simp only [Prod.mk.injEq, if_pos hn2] at e
  obtain ⟨e1, e2, e3⟩ := e
  have i1 : (o.f.is - o.ng ≤ a.2.2 ∧ a.2.2 ≤ o.f.ie + o.ng) ↔ (o.f.is - o.ng ≤ b.2.2 ∧ b.2.2 ≤ o.f.ie + o.ng) := by omega
  have j1 : (o.f.js - o.ng ≤ a.2.1 ∧ a.2.1 ≤ o.f.je + o.ng) ↔ (o.f.js - o.ng ≤ b.2.1 ∧ b.2.1 ≤ o.f.je + o.ng) := by omega
  have i2 : (a.2.2 < o.f.is ↔ b.2.2 < o.f.is) ∧ (o.f.ie < a.2.2 ↔ o.f.ie < b.2.2) := by omega
  have j2 : (a.2.1 < o.f.js ↔ b.2.1 < o.f.js) ∧ (o.f.je < a.2.1 ↔ o.f.je < b.2.1) := by omega
  have k1 : (if 2 < o.nDim then o.f.ks - o.ng ≤ a.1 ∧ a.1 ≤ o.f.ke + o.ng else a.1 = o.f.ks) ↔
      (if 2 < o.nDim then o.f.ks - o.ng ≤ b.1 ∧ b.1 ≤ o.f.ke + o.ng else b.1 = o.f.ks) := by
    split_ifs at e1 ⊢ with q
    · have := fk q; omega
    · omega
  have k2 : 2 < o.nDim → ((a.1 < o.f.ks ↔ b.1 < o.f.ks) ∧ (o.f.ke < a.1 ↔ o.f.ke < b.1)) := by
    intro q
    rw [if_pos q, if_pos q] at e1
    have := fk q
    omega
  have hnear : o.near a ↔ o.near b := by
    unfold near
    rw [k1, if_pos hn2, if_pos hn2, i1, j1]
  have hG : o.Ghost a ↔ o.Ghost b := by
    rw [ghost_iff, ghost_iff, hnear, i2.1, i2.2, j2.1, j2.2]
    rcases hn with q | q
    · simp [q]
    · rw [(k2 (by omega)).1, (k2 (by omega)).2]
  refine ⟨hnear, hG, ?_⟩
  unfold Inner
  rw [hnear, hG]

/-- The first zone of a block along one direction. -/
def axK (o : Ovl R) (a : ℤ) : ℤ := if 2 < o.nDim then o.f.ks + 2 * ((a - o.f.ks) / 2) else o.f.ks
def axJ (o : Ovl R) (a : ℤ) : ℤ := if 1 < o.nDim then o.f.js + 2 * ((a - o.f.js) / 2) else o.f.js
def axI (o : Ovl R) (a : ℤ) : ℤ := o.f.is + 2 * ((a - o.f.is) / 2)

theorem base_eq (x : Z3) : o.base x = (o.axK x.1, o.axJ x.2.1, o.axI x.2.2) := rfl
theorem axK_idem (a : ℤ) : o.axK (o.axK a) = o.axK a := by unfold axK; split_ifs <;> omega
theorem axJ_idem (a : ℤ) : o.axJ (o.axJ a) = o.axJ a := by unfold axJ; split_ifs <;> omega
theorem axI_idem (a : ℤ) : o.axI (o.axI a) = o.axI a := by unfold axI; omega

theorem axI_facts (a : ℤ) : (a ≠ o.axI a → o.axI (a - 1) = o.axI a ∧ o.axI (a + 1) = o.axI a + 2 ∧ o.axI (a + 1) = a + 1) ∧ (a = o.axI a → o.axI (a + 1) = o.axI a) ∧
    o.axI (o.axI a + 1) = o.axI a := by
  unfold axI; refine ⟨fun q => ⟨?_, ?_, ?_⟩, fun q => ?_, ?_⟩ <;> omega
theorem axJ_facts (hn : 1 < o.nDim) (a : ℤ) : (a ≠ o.axJ a → o.axJ (a - 1) = o.axJ a ∧ o.axJ (a + 1) = o.axJ a + 2 ∧ o.axJ (a + 1) = a + 1) ∧
    (a = o.axJ a → o.axJ (a + 1) = o.axJ a) ∧ o.axJ (o.axJ a + 1) = o.axJ a := by
  unfold axJ; simp only [if_pos hn]; refine ⟨fun q => ⟨?_, ?_, ?_⟩, fun q => ?_, ?_⟩ <;> omega
theorem axK_facts (hn : 2 < o.nDim) (a : ℤ) : (a ≠ o.axK a → o.axK (a - 1) = o.axK a ∧ o.axK (a + 1) = o.axK a + 2 ∧ o.axK (a + 1) = a + 1) ∧
    (a = o.axK a → o.axK (a + 1) = o.axK a) ∧ o.axK (o.axK a + 1) = o.axK a := by
  unfold axK; simp only [if_pos hn]; refine ⟨fun q => ⟨?_, ?_, ?_⟩, fun q => ?_, ?_⟩ <;> omega

theorem place (hn : o.nDim = 2 ∨ o.nDim = 3) (x : Z3) (hx : o.near x) :
    (o.nDim = 2 → (o.base x).1 = x.1) ∧ (x.1 = (o.base x).1 + (o.pn x : ℤ)) ∧ (x.2.1 = (o.base x).2.1 + (o.pm x : ℤ)) ∧ (x.2.2 = (o.base x).2.2 + (o.pl x : ℤ)) ∧
    o.pn x ≤ 1 ∧ o.pm x ≤ 1 ∧ o.pl x ≤ 1 := by
  obtain ⟨⟨ti, i1, i2, i3⟩, ⟨tj, j1, j2, j3⟩, ⟨tk, k1, k2, k3⟩, ni, nj, nk⟩ := pos_of hn x hx
  refine ⟨?_, ?_, ?_, ?_, ?_, ?_, ?_⟩
  · intro e; rw [if_neg (by omega)] at nk; omega
  · unfold pn; omega
  · unfold pm; omega
  · unfold pl; omega
  · unfold pn; omega
  · unfold pm; omega
  · unfold pl; omega

theorem disp_place (hn : o.nDim = 2 ∨ o.nDim = 3) (x : Z3) (hx : o.near x) : x = o.disp (o.base x) (o.pn x) (o.pm x) (o.pl x) := by
  obtain ⟨e, p1, p2, p3, -⟩ := place hn x hx
  unfold disp
  rw [if_pos (show 1 < o.nDim by omega), ← p2, ← p3]
  rcases hn with q | q
  · rw [if_neg (by omega), e q]
  · rw [if_pos (by omega), ← p1]

theorem coarse_eq {a b : Z3} (e : o.base a = o.base b) : o.coarseOf a = o.coarseOf b := by
  unfold base at e
  unfold coarseOf
  simp only [Prod.mk.injEq] at e ⊢
  refine ⟨?_, ?_, by omega⟩
  · have := e.1; split_ifs at this ⊢ <;> omega
  · have := e.2.1; split_ifs at this ⊢ <;> omega

theorem blockFld_eq (P C : PGrd R ns) {a b : Z3} (e : o.base a = o.base b) : o.blockFld P C a = o.blockFld P C b := by
  unfold blockFld; rw [e, coarse_eq e]

section faces
variable [IsStrictOrderedRing R]

theorem low1 (h : o.Fits) (hn : o.nDim = 2 ∨ o.nDim = 3) (hm : o.cf.mhd = true) (bad : ConsS R ns → Bool) (G : Fin 3 → Z3 → Cell R ns)
    (P C : PGrd R ns) (x : Z3) (hx : o.Ghost x) (hK : o.Known C x) :
    (o.prolongate bad G P C).B1 x = (o.blockFld P C x).x1 (o.pn x) (o.pm x) (o.pl x) := by
  have hn2 : 1 < o.nDim := by omega
  have hpl := place hn x hx.1
  have hkb : o.nDim = 3 ∨ (o.base x).1 = x.1 := by rcases hn with e | e; exacts [Or.inr (hpl.1 e), Or.inl e]
  have hf := axI_facts (o := o) x.2.2
  rw [(prolongate_field h hn hm bad G P C x).1]
  by_cases q : o.Inner (x.1, x.2.1, x.2.2 - 1)
  · rw [if_neg (fun t => t.2 q)]
    have hxx : x.2.2 = o.axI x.2.2 + (o.pl x : ℤ) := hpl.2.2.2.1
    have h0 : o.pl x = 0 := by
      by_contra hne
      apply q.2
      refine (alike h hn x (x.1, x.2.1, x.2.2 - 1) ?_ (Or.inr rfl)).2.1.1 hx
      rw [base_eq, base_eq]
      dsimp only
      rw [(hf.1 (by omega)).1]
    have hI : o.Inner ((o.base x).1, (o.base x).2.1, (o.base x).2.2 - 1) := by
      refine (alike h hn ((o.base x).1, (o.base x).2.1, (o.base x).2.2 - 1) (x.1, x.2.1, x.2.2 - 1) ?_ (hkb)).2.2.2 q
      rw [h0, Nat.cast_zero, add_zero] at hxx
      rw [base_eq, base_eq]
      dsimp only [base_eq]
      rw [axK_idem, axJ_idem, ← hxx]
    have hp : (o.fineFaces C (o.base x)).x1 0 0 0 = C.B1 (o.base x) := by
      unfold fineFaces
      dsimp only
      rw [if_neg (fun t => absurd t.1 (by decide)), if_pos ⟨rfl, by omega, by omega, hI⟩]
      congr 1
      unfold disp
      simp
    rw [h0]
    unfold blockFld
    rw [(proFld_keeps_partial o.cf _ _ o.dx1 o.dx2 o.dx3 0 (Or.inl rfl)).1 (by rw [hp]; exact hK.l1 hI)]
    unfold fineFaces
    dsimp only
    rw [if_neg (fun t => absurd t.1 (by decide)), if_pos ⟨rfl, hpl.2.2.2.2.1, hpl.2.2.2.2.2.1, hI⟩]
    congr 1
    have := disp_place hn x hx.1
    rw [h0] at this
    exact_mod_cast this
  · rw [if_pos ⟨hx, q⟩]

theorem up1 (h : o.Fits) (hn : o.nDim = 2 ∨ o.nDim = 3) (hm : o.cf.mhd = true) (bad : ConsS R ns → Bool) (G : Fin 3 → Z3 → Cell R ns)
    (P C : PGrd R ns) (x : Z3) (hx : o.Ghost x) (hy : o.near (x.1, x.2.1, x.2.2 + 1)) (hK : o.Known C x) :
    (o.prolongate bad G P C).B1 (x.1, x.2.1, x.2.2 + 1) = (o.blockFld P C x).x1 (o.pn x) (o.pm x) (o.pl x + 1) := by
  have hn2 : 1 < o.nDim := by omega
  have hpl := place hn x hx.1
  have hkb : o.nDim = 3 ∨ (o.base x).1 = x.1 := by rcases hn with e | e; exacts [Or.inr (hpl.1 e), Or.inl e]
  have hf := axI_facts (o := o) x.2.2
  have hxx : x.2.2 = o.axI x.2.2 + (o.pl x : ℤ) := hpl.2.2.2.1
  have hback : ¬ o.Inner (x.1, x.2.1, x.2.2 + 1 - 1) := by
    rw [add_sub_cancel_right]
    exact fun t => t.2 hx
  have hp0 : o.pl x = 0 ∨ o.pl x = 1 := by have := hpl.2.2.2.2.2.2; omega
  rw [(prolongate_field h hn hm bad G P C (x.1, x.2.1, x.2.2 + 1)).1]
  dsimp only
  rcases hp0 with h0 | h0
  · have hb : o.base (x.1, x.2.1, x.2.2 + 1) = o.base x := by
      rw [base_eq, base_eq]
      dsimp only
      rw [hf.2.1 (by omega)]
    have hg : o.Ghost (x.1, x.2.1, x.2.2 + 1) := (alike h hn _ x hb (Or.inr rfl)).2.1.2 hx
    rw [if_pos ⟨hg, hback⟩, blockFld_eq P C hb]
    have e1 : o.pn (x.1, x.2.1, x.2.2 + 1) = o.pn x := by unfold pn; rw [hb]
    have e2 : o.pm (x.1, x.2.1, x.2.2 + 1) = o.pm x := by unfold pm; rw [hb]
    have e4 : o.pl (x.1, x.2.1, x.2.2 + 1) = o.pl x + 1 := by unfold pl; rw [hb]; simp only [pl] at h0; rw [base_eq] at *; dsimp only at *; omega
    rw [e1, e2, e4]
  · obtain ⟨hf1, hf2, hf3⟩ := hf.1 (by omega)
    rw [h0]
    have hz := disp_place hn x hx.1
    rw [h0] at hz
    by_cases hg : o.Ghost (x.1, x.2.1, x.2.2 + 1)
    · rw [if_pos ⟨hg, hback⟩]
      have nI : ¬ o.Inner ((o.base x).1, (o.base x).2.1, (o.base x).2.2 + 2) := by
        intro t
        refine (alike h hn ((o.base x).1, (o.base x).2.1, (o.base x).2.2 + 2) (x.1, x.2.1, x.2.2 + 1) ?_ (hkb)).2.2.1 t |>.2 hg
        rw [base_eq, base_eq]
        dsimp only [base_eq]
        rw [axK_idem, axJ_idem, ← hf2]
        rw [axI_idem]
      have hb' : o.base (x.1, x.2.1, x.2.2 + 1) = ((o.base x).1, (o.base x).2.1, (o.base x).2.2 + 2) := by
        rw [base_eq, base_eq]
        dsimp only
        rw [hf2]
      have nI' : ¬ o.Inner ((o.base x).1, (o.base x).2.1, (o.base x).2.2 + 2 - 1) := by
        intro t
        refine (alike h hn ((o.base x).1, (o.base x).2.1, (o.base x).2.2 + 2 - 1) x ?_ (hkb)).2.2.1 t |>.2 hx
        rw [base_eq, base_eq]
        dsimp only [base_eq]
        rw [axK_idem, axJ_idem, show o.axI x.2.2 + 2 - 1 = o.axI x.2.2 + 1 by ring, hf.2.2]
      have c1 : o.pn (x.1, x.2.1, x.2.2 + 1) = o.pn x := by unfold pn; rw [hb']
      have c2 : o.pm (x.1, x.2.1, x.2.2 + 1) = o.pm x := by unfold pm; rw [hb']
      have c3 : o.pl (x.1, x.2.1, x.2.2 + 1) = 0 := by unfold pl; rw [hb']; rw [base_eq]; dsimp only; rw [← hf2, hf3]; simp
      rw [c1, c2, c3]
      unfold blockFld
      rw [hb', (proFld_outer _ _ _ _ _ _ _ _).1, (proFld_outer _ _ _ _ _ _ _ _).2.1]
      have k1 : (o.fineFaces C ((o.base x).1, (o.base x).2.1, (o.base x).2.2 + 2)).x1 0 0 0 = 0 := by
        simp only [fineFaces, nI', and_false, if_false, OfNat.zero_ne_ofNat, false_and]
      have k2 : (o.fineFaces C (o.base x)).x1 0 0 2 = 0 := by
        simp only [fineFaces, nI, and_false, if_false, OfNat.ofNat_ne_zero, false_and]
      have hco : o.coarseOf (x.1, x.2.1, x.2.2 + 1) = o.disp (o.coarseOf x) 0 0 1 := by
        unfold coarseOf disp
        rw [base_eq] at *
        simp only [if_pos hn2, Prod.mk.injEq]
        unfold axI at *
        refine ⟨?_, ?_, ?_⟩ <;> (try split_ifs) <;> omega
      have hgg : ∀ n m : ℕ, n ≤ 2 → m ≤ 2 → (o.coarseFld P (o.coarseOf (x.1, x.2.1, x.2.2 + 1))).x1 n m 1 = (o.coarseFld P (o.coarseOf x)).x1 n m 2 := by
        intro n m a b
        unfold coarseFld
        dsimp only
        rw [hco, if_pos ⟨by omega, by omega, by omega⟩, if_pos ⟨by omega, by omega, by omega⟩]
        congr 1
        unfold disp
        simp only [Prod.mk.injEq]
        refine ⟨?_, ?_, ?_⟩ <;> (try split_ifs) <;> push_cast <;> omega
      unfold outer1
      rw [k1, k2, if_pos rfl, if_pos rfl]
      simp only [hgg 0 1 (by omega) (by omega), hgg 1 0 (by omega) (by omega), hgg 1 1 (by omega) (by omega), hgg 2 1 (by omega) (by omega), hgg 1 2 (by omega) (by omega)]
    · rw [if_neg (fun t => hg t.1)]
      have hI : o.Inner ((o.base x).1, (o.base x).2.1, (o.base x).2.2 + 2) := by
        refine (alike h hn ((o.base x).1, (o.base x).2.1, (o.base x).2.2 + 2) (x.1, x.2.1, x.2.2 + 1) ?_ (hkb)).2.2.2 ⟨hy, hg⟩
        rw [base_eq, base_eq]
        dsimp only [base_eq]
        rw [axK_idem, axJ_idem, ← hf2]
        rw [axI_idem]
      unfold blockFld
      rw [(proFld_keeps_partial o.cf _ _ o.dx1 o.dx2 o.dx3 2 (Or.inr rfl)).1]
      · unfold fineFaces
        dsimp only
        rw [if_pos ⟨rfl, hpl.2.2.2.2.1, hpl.2.2.2.2.2.1, hI⟩]
        congr 1
        conv_lhs => rw [hz]
        unfold disp
        simp only [if_pos hn2]
        push_cast
        norm_num [add_assoc]
      · have := hK.r1 hI
        unfold fineFaces
        dsimp only
        rw [if_pos ⟨rfl, by omega, by omega, hI⟩]
        exact_mod_cast this

theorem low2 (h : o.Fits) (hn : o.nDim = 2 ∨ o.nDim = 3) (hm : o.cf.mhd = true) (bad : ConsS R ns → Bool) (G : Fin 3 → Z3 → Cell R ns)
    (P C : PGrd R ns) (x : Z3) (hx : o.Ghost x) (hK : o.Known C x) :
    (o.prolongate bad G P C).B2 x = (o.blockFld P C x).x2 (o.pn x) (o.pm x) (o.pl x) := by
  have hn2 : 1 < o.nDim := by omega
  have hpl := place hn x hx.1
  have hkb : o.nDim = 3 ∨ (o.base x).1 = x.1 := by rcases hn with e | e; exacts [Or.inr (hpl.1 e), Or.inl e]
  have hf := axJ_facts hn2 x.2.1
  rw [(prolongate_field h hn hm bad G P C x).2.1]
  by_cases q : o.Inner (x.1, x.2.1 - 1, x.2.2)
  · rw [if_neg (fun t => t.2 q)]
    have hxx : x.2.1 = o.axJ x.2.1 + (o.pm x : ℤ) := hpl.2.2.1
    have h0 : o.pm x = 0 := by
      by_contra hne
      apply q.2
      refine (alike h hn x (x.1, x.2.1 - 1, x.2.2) ?_ (Or.inr rfl)).2.1.1 hx
      rw [base_eq, base_eq]
      dsimp only
      rw [(hf.1 (by omega)).1]
    have hI : o.Inner ((o.base x).1, (o.base x).2.1 - 1, (o.base x).2.2) := by
      refine (alike h hn ((o.base x).1, (o.base x).2.1 - 1, (o.base x).2.2) (x.1, x.2.1 - 1, x.2.2) ?_ (hkb)).2.2.2 q
      rw [h0, Nat.cast_zero, add_zero] at hxx
      rw [base_eq, base_eq]
      dsimp only [base_eq]
      rw [axK_idem, axI_idem, ← hxx]
    have hp : (o.fineFaces C (o.base x)).x2 0 0 0 = C.B2 (o.base x) := by
      unfold fineFaces
      dsimp only
      rw [if_neg (fun t => absurd t.1 (by decide)), if_pos ⟨rfl, by omega, by omega, hI⟩]
      congr 1
      unfold disp
      simp
    rw [h0]
    unfold blockFld
    rw [(proFld_keeps_partial o.cf _ _ o.dx1 o.dx2 o.dx3 0 (Or.inl rfl)).2.1 (by rw [hp]; exact hK.l2 hI)]
    unfold fineFaces
    dsimp only
    rw [if_neg (fun t => absurd t.1 (by decide)), if_pos ⟨rfl, hpl.2.2.2.2.1, hpl.2.2.2.2.2.2, hI⟩]
    congr 1
    have := disp_place hn x hx.1
    rw [h0] at this
    exact_mod_cast this
  · rw [if_pos ⟨hx, q⟩]

theorem up2 (h : o.Fits) (hn : o.nDim = 2 ∨ o.nDim = 3) (hm : o.cf.mhd = true) (bad : ConsS R ns → Bool) (G : Fin 3 → Z3 → Cell R ns)
    (P C : PGrd R ns) (x : Z3) (hx : o.Ghost x) (hy : o.near (x.1, x.2.1 + 1, x.2.2)) (hK : o.Known C x) :
    (o.prolongate bad G P C).B2 (x.1, x.2.1 + 1, x.2.2) = (o.blockFld P C x).x2 (o.pn x) (o.pm x + 1) (o.pl x) := by
  have hn2 : 1 < o.nDim := by omega
  have hpl := place hn x hx.1
  have hkb : o.nDim = 3 ∨ (o.base x).1 = x.1 := by rcases hn with e | e; exacts [Or.inr (hpl.1 e), Or.inl e]
  have hf := axJ_facts hn2 x.2.1
  have hxx : x.2.1 = o.axJ x.2.1 + (o.pm x : ℤ) := hpl.2.2.1
  have hback : ¬ o.Inner (x.1, x.2.1 + 1 - 1, x.2.2) := by
    rw [add_sub_cancel_right]
    exact fun t => t.2 hx
  have hp0 : o.pm x = 0 ∨ o.pm x = 1 := by have := hpl.2.2.2.2.2.1; omega
  rw [(prolongate_field h hn hm bad G P C (x.1, x.2.1 + 1, x.2.2)).2.1]
  dsimp only
  rcases hp0 with h0 | h0
  · have hb : o.base (x.1, x.2.1 + 1, x.2.2) = o.base x := by
      rw [base_eq, base_eq]
      dsimp only
      rw [hf.2.1 (by omega)]
    have hg : o.Ghost (x.1, x.2.1 + 1, x.2.2) := (alike h hn _ x hb (Or.inr rfl)).2.1.2 hx
    rw [if_pos ⟨hg, hback⟩, blockFld_eq P C hb]
    have e1 : o.pn (x.1, x.2.1 + 1, x.2.2) = o.pn x := by unfold pn; rw [hb]
    have e2 : o.pm (x.1, x.2.1 + 1, x.2.2) = o.pm x + 1 := by unfold pm; rw [hb]; simp only [pm] at h0; rw [base_eq] at *; dsimp only at *; omega
    have e4 : o.pl (x.1, x.2.1 + 1, x.2.2) = o.pl x := by unfold pl; rw [hb]
    rw [e1, e2, e4]
  · obtain ⟨hf1, hf2, hf3⟩ := hf.1 (by omega)
    rw [h0]
    have hz := disp_place hn x hx.1
    rw [h0] at hz
    by_cases hg : o.Ghost (x.1, x.2.1 + 1, x.2.2)
    · rw [if_pos ⟨hg, hback⟩]
      have nI : ¬ o.Inner ((o.base x).1, (o.base x).2.1 + 2, (o.base x).2.2) := by
        intro t
        refine (alike h hn ((o.base x).1, (o.base x).2.1 + 2, (o.base x).2.2) (x.1, x.2.1 + 1, x.2.2) ?_ (hkb)).2.2.1 t |>.2 hg
        rw [base_eq, base_eq]
        dsimp only [base_eq]
        rw [axK_idem, axI_idem, ← hf2]
        rw [axJ_idem]
      have hb' : o.base (x.1, x.2.1 + 1, x.2.2) = ((o.base x).1, (o.base x).2.1 + 2, (o.base x).2.2) := by
        rw [base_eq, base_eq]
        dsimp only
        rw [hf2]
      have nI' : ¬ o.Inner ((o.base x).1, (o.base x).2.1 + 2 - 1, (o.base x).2.2) := by
        intro t
        refine (alike h hn ((o.base x).1, (o.base x).2.1 + 2 - 1, (o.base x).2.2) x ?_ (hkb)).2.2.1 t |>.2 hx
        rw [base_eq, base_eq]
        dsimp only [base_eq]
        rw [axK_idem, axI_idem, show o.axJ x.2.1 + 2 - 1 = o.axJ x.2.1 + 1 by ring, hf.2.2]
      have c1 : o.pn (x.1, x.2.1 + 1, x.2.2) = o.pn x := by unfold pn; rw [hb']
      have c2 : o.pm (x.1, x.2.1 + 1, x.2.2) = 0 := by unfold pm; rw [hb']; rw [base_eq]; dsimp only; rw [← hf2, hf3]; simp
      have c3 : o.pl (x.1, x.2.1 + 1, x.2.2) = o.pl x := by unfold pl; rw [hb']
      rw [c1, c2, c3]
      unfold blockFld
      rw [hb', (proFld_outer _ _ _ _ _ _ _ _).2.2.1, (proFld_outer _ _ _ _ _ _ _ _).2.2.2.1]
      have k1 : (o.fineFaces C ((o.base x).1, (o.base x).2.1 + 2, (o.base x).2.2)).x2 0 0 0 = 0 := by
        simp only [fineFaces, nI', and_false, if_false, OfNat.zero_ne_ofNat, false_and]
      have k2 : (o.fineFaces C (o.base x)).x2 0 2 0 = 0 := by
        simp only [fineFaces, nI, and_false, if_false, OfNat.ofNat_ne_zero, false_and]
      have hco : o.coarseOf (x.1, x.2.1 + 1, x.2.2) = o.disp (o.coarseOf x) 0 1 0 := by
        unfold coarseOf disp
        rw [base_eq] at *
        simp only [if_pos hn2, Prod.mk.injEq]
        simp only [axJ, if_pos hn2] at *
        refine ⟨?_, ?_, ?_⟩ <;> (try split_ifs) <;> omega
      have hgg : ∀ n m : ℕ, n ≤ 2 → m ≤ 2 → (o.coarseFld P (o.coarseOf (x.1, x.2.1 + 1, x.2.2))).x2 n 1 m = (o.coarseFld P (o.coarseOf x)).x2 n 2 m := by
        intro n m a b
        unfold coarseFld
        dsimp only
        rw [hco, if_pos ⟨by omega, by omega, by omega⟩, if_pos ⟨by omega, by omega, by omega⟩]
        congr 1
        unfold disp
        simp only [Prod.mk.injEq]
        refine ⟨?_, ?_, ?_⟩ <;> (try split_ifs) <;> push_cast <;> omega
      unfold outer2
      rw [k1, k2, if_pos rfl, if_pos rfl]
      simp only [hgg 0 1 (by omega) (by omega), hgg 1 0 (by omega) (by omega), hgg 1 1 (by omega) (by omega), hgg 2 1 (by omega) (by omega), hgg 1 2 (by omega) (by omega)]
    · rw [if_neg (fun t => hg t.1)]
      have hI : o.Inner ((o.base x).1, (o.base x).2.1 + 2, (o.base x).2.2) := by
        refine (alike h hn ((o.base x).1, (o.base x).2.1 + 2, (o.base x).2.2) (x.1, x.2.1 + 1, x.2.2) ?_ (hkb)).2.2.2 ⟨hy, hg⟩
        rw [base_eq, base_eq]
        dsimp only [base_eq]
        rw [axK_idem, axI_idem, ← hf2]
        rw [axJ_idem]
      unfold blockFld
      rw [(proFld_keeps_partial o.cf _ _ o.dx1 o.dx2 o.dx3 2 (Or.inr rfl)).2.1]
      · unfold fineFaces
        dsimp only
        rw [if_pos ⟨rfl, hpl.2.2.2.2.1, hpl.2.2.2.2.2.2, hI⟩]
        congr 1
        conv_lhs => rw [hz]
        unfold disp
        simp only [if_pos hn2]
        push_cast
        norm_num [add_assoc]
      · have := hK.r2 hI
        unfold fineFaces
        dsimp only
        rw [if_pos ⟨rfl, by omega, by omega, hI⟩]
        exact_mod_cast this

theorem low3 (h : o.Fits) (hn : o.nDim = 2 ∨ o.nDim = 3) (e3 : o.nDim = 3) (hm : o.cf.mhd = true) (bad : ConsS R ns → Bool) (G : Fin 3 → Z3 → Cell R ns)
    (P C : PGrd R ns) (x : Z3) (hx : o.Ghost x) (hK : o.Known C x) :
    (o.prolongate bad G P C).B3 x = (o.blockFld P C x).x3 (o.pn x) (o.pm x) (o.pl x) := by
  have hn2 : 1 < o.nDim := by omega
  have hpl := place hn x hx.1
  have hn3 : 2 < o.nDim := by omega
  have hf := axK_facts hn3 x.1
  rw [(prolongate_field h hn hm bad G P C x).2.2.1]
  by_cases q : o.Inner (x.1 - 1, x.2.1, x.2.2)
  · rw [if_neg (fun t => t.2 q)]
    have hxx : x.1 = o.axK x.1 + (o.pn x : ℤ) := hpl.2.1
    have h0 : o.pn x = 0 := by
      by_contra hne
      apply q.2
      refine (alike h hn x (x.1 - 1, x.2.1, x.2.2) ?_ (Or.inl e3)).2.1.1 hx
      rw [base_eq, base_eq]
      dsimp only
      rw [(hf.1 (by omega)).1]
    have hI : o.Inner ((o.base x).1 - 1, (o.base x).2.1, (o.base x).2.2) := by
      refine (alike h hn ((o.base x).1 - 1, (o.base x).2.1, (o.base x).2.2) (x.1 - 1, x.2.1, x.2.2) ?_ (Or.inl e3)).2.2.2 q
      rw [h0, Nat.cast_zero, add_zero] at hxx
      rw [base_eq, base_eq]
      dsimp only [base_eq]
      rw [axJ_idem, axI_idem, ← hxx]
    have hp : (o.fineFaces C (o.base x)).x3 0 0 0 = C.B3 (o.base x) := by
      unfold fineFaces
      dsimp only
      rw [if_neg (fun t => absurd t.1 (by decide)), if_pos ⟨rfl, by omega, by omega, hI⟩]
      congr 1
      unfold disp
      simp
    rw [h0]
    unfold blockFld
    rw [(proFld_keeps_partial o.cf _ _ o.dx1 o.dx2 o.dx3 0 (Or.inl rfl)).2.2 (by rw [hp]; exact hK.l3 hI)]
    unfold fineFaces
    dsimp only
    rw [if_neg (fun t => absurd t.1 (by decide)), if_pos ⟨rfl, hpl.2.2.2.2.2.1, hpl.2.2.2.2.2.2, hI⟩]
    congr 1
    have := disp_place hn x hx.1
    rw [h0] at this
    exact_mod_cast this
  · rw [if_pos ⟨hx, q⟩]

theorem up3 (h : o.Fits) (hn : o.nDim = 2 ∨ o.nDim = 3) (e3 : o.nDim = 3) (hm : o.cf.mhd = true) (bad : ConsS R ns → Bool) (G : Fin 3 → Z3 → Cell R ns)
    (P C : PGrd R ns) (x : Z3) (hx : o.Ghost x) (hy : o.near (x.1 + 1, x.2.1, x.2.2)) (hK : o.Known C x) :
    (o.prolongate bad G P C).B3 (x.1 + 1, x.2.1, x.2.2) = (o.blockFld P C x).x3 (o.pn x + 1) (o.pm x) (o.pl x) := by
  have hn2 : 1 < o.nDim := by omega
  have hpl := place hn x hx.1
  have hn3 : 2 < o.nDim := by omega
  have hf := axK_facts hn3 x.1
  have hxx : x.1 = o.axK x.1 + (o.pn x : ℤ) := hpl.2.1
  have hback : ¬ o.Inner (x.1 + 1 - 1, x.2.1, x.2.2) := by
    rw [add_sub_cancel_right]
    exact fun t => t.2 hx
  have hp0 : o.pn x = 0 ∨ o.pn x = 1 := by have := hpl.2.2.2.2.1; omega
  rw [(prolongate_field h hn hm bad G P C (x.1 + 1, x.2.1, x.2.2)).2.2.1]
  dsimp only
  rcases hp0 with h0 | h0
  · have hb : o.base (x.1 + 1, x.2.1, x.2.2) = o.base x := by
      rw [base_eq, base_eq]
      dsimp only
      rw [hf.2.1 (by omega)]
    have hg : o.Ghost (x.1 + 1, x.2.1, x.2.2) := (alike h hn _ x hb (Or.inl e3)).2.1.2 hx
    rw [if_pos ⟨hg, hback⟩, blockFld_eq P C hb]
    have e1 : o.pn (x.1 + 1, x.2.1, x.2.2) = o.pn x + 1 := by unfold pn; rw [hb]; simp only [pn] at h0; rw [base_eq] at *; dsimp only at *; omega
    have e2 : o.pm (x.1 + 1, x.2.1, x.2.2) = o.pm x := by unfold pm; rw [hb]
    have e4 : o.pl (x.1 + 1, x.2.1, x.2.2) = o.pl x := by unfold pl; rw [hb]
    rw [e1, e2, e4]
  · obtain ⟨hf1, hf2, hf3⟩ := hf.1 (by omega)
    rw [h0]
    have hz := disp_place hn x hx.1
    rw [h0] at hz
    by_cases hg : o.Ghost (x.1 + 1, x.2.1, x.2.2)
    · rw [if_pos ⟨hg, hback⟩]
      have nI : ¬ o.Inner ((o.base x).1 + 2, (o.base x).2.1, (o.base x).2.2) := by
        intro t
        refine (alike h hn ((o.base x).1 + 2, (o.base x).2.1, (o.base x).2.2) (x.1 + 1, x.2.1, x.2.2) ?_ (Or.inl e3)).2.2.1 t |>.2 hg
        rw [base_eq, base_eq]
        dsimp only [base_eq]
        rw [axJ_idem, axI_idem, ← hf2]
        rw [axK_idem]
      have hb' : o.base (x.1 + 1, x.2.1, x.2.2) = ((o.base x).1 + 2, (o.base x).2.1, (o.base x).2.2) := by
        rw [base_eq, base_eq]
        dsimp only
        rw [hf2]
      have nI' : ¬ o.Inner ((o.base x).1 + 2 - 1, (o.base x).2.1, (o.base x).2.2) := by
        intro t
        refine (alike h hn ((o.base x).1 + 2 - 1, (o.base x).2.1, (o.base x).2.2) x ?_ (Or.inl e3)).2.2.1 t |>.2 hx
        rw [base_eq, base_eq]
        dsimp only [base_eq]
        rw [axJ_idem, axI_idem, show o.axK x.1 + 2 - 1 = o.axK x.1 + 1 by ring, hf.2.2]
      have c1 : o.pn (x.1 + 1, x.2.1, x.2.2) = 0 := by unfold pn; rw [hb']; rw [base_eq]; dsimp only; rw [← hf2, hf3]; simp
      have c2 : o.pm (x.1 + 1, x.2.1, x.2.2) = o.pm x := by unfold pm; rw [hb']
      have c3 : o.pl (x.1 + 1, x.2.1, x.2.2) = o.pl x := by unfold pl; rw [hb']
      rw [c1, c2, c3]
      unfold blockFld
      rw [hb', (proFld_outer _ _ _ _ _ _ _ _).2.2.2.2.1, (proFld_outer _ _ _ _ _ _ _ _).2.2.2.2.2]
      have k1 : (o.fineFaces C ((o.base x).1 + 2, (o.base x).2.1, (o.base x).2.2)).x3 0 0 0 = 0 := by
        simp only [fineFaces, nI', and_false, if_false, OfNat.zero_ne_ofNat, false_and]
      have k2 : (o.fineFaces C (o.base x)).x3 2 0 0 = 0 := by
        simp only [fineFaces, nI, and_false, if_false, OfNat.ofNat_ne_zero, false_and]
      have hco : o.coarseOf (x.1 + 1, x.2.1, x.2.2) = o.disp (o.coarseOf x) 1 0 0 := by
        unfold coarseOf disp
        rw [base_eq] at *
        simp only [if_pos hn2, if_pos hn3, Prod.mk.injEq]
        simp only [axK, if_pos hn3] at *
        refine ⟨?_, ?_, ?_⟩ <;> (try split_ifs) <;> omega
      have hgg : ∀ n m : ℕ, n ≤ 2 → m ≤ 2 → (o.coarseFld P (o.coarseOf (x.1 + 1, x.2.1, x.2.2))).x3 1 n m = (o.coarseFld P (o.coarseOf x)).x3 2 n m := by
        intro n m a b
        unfold coarseFld
        dsimp only
        rw [hco, if_pos ⟨by omega, by omega, by omega⟩, if_pos ⟨by omega, by omega, by omega⟩]
        congr 1
        unfold disp
        simp only [Prod.mk.injEq]
        refine ⟨?_, ?_, ?_⟩ <;> (try split_ifs) <;> push_cast <;> omega
      unfold outer3
      rw [k1, k2, if_pos rfl, if_pos rfl]
      simp only [hgg 0 1 (by omega) (by omega), hgg 1 0 (by omega) (by omega), hgg 1 1 (by omega) (by omega), hgg 2 1 (by omega) (by omega), hgg 1 2 (by omega) (by omega)]
    · rw [if_neg (fun t => hg t.1)]
      have hI : o.Inner ((o.base x).1 + 2, (o.base x).2.1, (o.base x).2.2) := by
        refine (alike h hn ((o.base x).1 + 2, (o.base x).2.1, (o.base x).2.2) (x.1 + 1, x.2.1, x.2.2) ?_ (Or.inl e3)).2.2.2 ⟨hy, hg⟩
        rw [base_eq, base_eq]
        dsimp only [base_eq]
        rw [axJ_idem, axI_idem, ← hf2]
        rw [axK_idem]
      unfold blockFld
      rw [(proFld_keeps_partial o.cf _ _ o.dx1 o.dx2 o.dx3 2 (Or.inr rfl)).2.2]
      · unfold fineFaces
        dsimp only
        rw [if_pos ⟨rfl, hpl.2.2.2.2.2.1, hpl.2.2.2.2.2.2, hI⟩]
        congr 1
        conv_lhs => rw [hz]
        unfold disp
        simp only [if_pos hn2, if_pos hn3]
        push_cast
        norm_num [add_assoc]
      · have := hK.r3 hI
        unfold fineFaces
        dsimp only
        rw [if_pos ⟨rfl, by omega, by omega, hI⟩]
        exact_mod_cast this

end faces

/-! ## Theorems -/

section thms
variable [IsStrictOrderedRing R]

omit [IsStrictOrderedRing R] in
theorem matched_ok (P C : PGrd R ns) (x : Z3) (hM : o.Matched P C x) : KnownOk (o.coarseFld P (o.coarseOf x)) (o.fineFaces C (o.base x)) := by
  constructor
  · by_cases hI : o.Inner ((o.base x).1, (o.base x).2.1, (o.base x).2.2 - 1)
    · right
      have := hM.l1 hI
      unfold mean4 at this
      have hg : (o.coarseFld P (o.coarseOf x)).x1 1 1 1  = P.B1 (o.coarseOf x) := by
        simp [coarseFld, disp]
      rw [hg, ← this]
      simp [fineFaces, hI]
    · left
      simp [fineFaces, hI]
  · by_cases hI : o.Inner ((o.base x).1, (o.base x).2.1, (o.base x).2.2 + 2)
    · right
      have := hM.r1 hI
      unfold mean4 at this
      have hg : (o.coarseFld P (o.coarseOf x)).x1 1 1 2  = P.B1 (o.disp (o.coarseOf x) 0 0 1) := by
        simp [coarseFld, disp]
      rw [hg, ← this]
      simp [fineFaces, hI]
    · left
      simp [fineFaces, hI]
  · by_cases hI : o.Inner ((o.base x).1, (o.base x).2.1 - 1, (o.base x).2.2)
    · right
      have := hM.l2 hI
      unfold mean4 at this
      have hg : (o.coarseFld P (o.coarseOf x)).x2 1 1 1 = P.B2 (o.coarseOf x) := by
        simp [coarseFld, disp]
      rw [hg, ← this]
      simp [fineFaces, hI]
    · left
      simp [fineFaces, hI]
  · by_cases hI : o.Inner ((o.base x).1, (o.base x).2.1 + 2, (o.base x).2.2)
    · right
      have := hM.r2 hI
      unfold mean4 at this
      have hg : (o.coarseFld P (o.coarseOf x)).x2 1 2 1 = P.B2 (o.disp (o.coarseOf x) 0 1 0) := by
        simp [coarseFld, disp]
      rw [hg, ← this]
      simp [fineFaces, hI]
    · left
      simp [fineFaces, hI]
  · by_cases hI : o.Inner ((o.base x).1 - 1, (o.base x).2.1, (o.base x).2.2)
    · right
      have := hM.l3 hI
      unfold mean4 at this
      have hg : (o.coarseFld P (o.coarseOf x)).x3  1 1 1 = P.B3 (o.coarseOf x) := by
        simp [coarseFld, disp]
      rw [hg, ← this]
      simp [fineFaces, hI]
    · left
      simp [fineFaces, hI]
  · by_cases hI : o.Inner ((o.base x).1 + 2, (o.base x).2.1, (o.base x).2.2)
    · right
      have := hM.r3 hI
      unfold mean4 at this
      have hg : (o.coarseFld P (o.coarseOf x)).x3  2 1 1 = P.B3 (o.disp (o.coarseOf x) 1 0 0) := by
        simp [coarseFld, disp]
      rw [hg, ← this]
      simp [fineFaces, hI]
    · left
      simp [fineFaces, hI]

omit [IsStrictOrderedRing R] in
theorem flat_of (e : o.nDim = 2) (P C : PGrd R ns) (x : Z3) (hx : o.near x) : Flat (o.coarseFld P (o.coarseOf x)) (o.fineFaces C (o.base x)) := by
  have d2 : ∀ (y : Z3) (a b c : ℤ), o.disp y a b c = (y.1, y.2.1 + b, y.2.2 + c) := by intro y a b c; unfold disp; simp [e]
  have hb : (o.base x).1 = o.f.ks := by unfold base; simp [e]
  have n3 : ∀ u v w : ℤ, w ≠ o.f.ks → ¬ o.Inner (w, u, v) := by
    intro u v w hw t
    have := t.1.1
    rw [if_neg (by omega)] at this
    exact hw this
  constructor <;> intro k hk j i
  · simp only [coarseFld, d2, hk, true_and]; simp
  · simp only [coarseFld, d2, hk, true_and]; simp
  · simp only [coarseFld, d2, hk, true_and]; simp
  · simp only [fineFaces, d2, hk, true_and]; simp
  · simp only [fineFaces, d2, hk, true_and]; simp
  · simp [fineFaces, n3 _ _ _ (show (o.base x).1 + 2 ≠ o.f.ks by omega), n3 _ _ _ (show (o.base x).1 - 1 ≠ o.f.ks by omega)]

/-- **C118 (partial).**  Ghost zones filled by prolongation have the divergence of the parent's zone that contains them: if the parent's field is the mean
of the child's on the boundary between the levels (C29) and the parent's field is free of divergence, so is the field in the ghost zones (of those
whose upper faces exist, i.e. but for the outermost layer on the upper sides).  Missing: the first of the child's values on a boundary face may be
exactly 0 (`hK`); without it the statement fails, see `prolongate_div_false`. -/
theorem prolongate_div_partial (h : o.Fits) (hn : o.nDim = 2 ∨ o.nDim = 3) (hm : o.cf.mhd = true) (h1 : 0 < o.dx1) (h2 : 0 < o.dx2) (h3 : 0 < o.dx3)
    (bad : ConsS R ns → Bool) (G : Fin 3 → Z3 → Cell R ns) (P C : PGrd R ns) (x : Z3) (hx : o.Ghost x)
    (y1 : o.near (x.1, x.2.1, x.2.2 + 1)) (y2 : o.near (x.1, x.2.1 + 1, x.2.2)) (y3 : o.nDim = 3 → o.near (x.1 + 1, x.2.1, x.2.2))
    (hM : o.Matched P C x) (hK : o.Known C x) :
    o.divB (o.prolongate bad G P C) o.dx1 o.dx2 o.dx3 x = o.divB P (2 * o.dx1) (2 * o.dx2) (2 * o.dx3) (o.coarseOf x) := by
  have hpl := place hn x hx.1
  have hko := matched_ok P C x hM
  have hn2 : 1 < o.nDim := by omega
  have l1 := low1 h hn hm bad G P C x hx hK
  have l2 := low2 h hn hm bad G P C x hx hK
  have u1 := up1 h hn hm bad G P C x hx y1 hK
  have u2 := up2 h hn hm bad G P C x hx y2 hK
  have g1 : (o.coarseFld P (o.coarseOf x)).x1 1 1 1 = P.B1 (o.coarseOf x) := by simp [coarseFld, disp]
  have g2 : (o.coarseFld P (o.coarseOf x)).x1 1 1 2 = P.B1 ((o.coarseOf x).1, (o.coarseOf x).2.1, (o.coarseOf x).2.2 + 1) := by simp [coarseFld, disp]
  have g3 : (o.coarseFld P (o.coarseOf x)).x2 1 1 1 = P.B2 (o.coarseOf x) := by simp [coarseFld, disp]
  have g4 : (o.coarseFld P (o.coarseOf x)).x2 1 2 1 = P.B2 ((o.coarseOf x).1, (o.coarseOf x).2.1 + 1, (o.coarseOf x).2.2) := by simp [coarseFld, disp, hn2]
  unfold divB
  rw [l1, l2, u1, u2]
  rcases hn with e | e
  · have hp0 : o.pn x = 0 := by have := hpl.1 e; have := hpl.2.1; omega
    have := proFld_div_2d o.cf _ _ (flat_of e P C x hx.1) hko h1 h2 h3 (j := o.pm x) (i := o.pl x) (by omega) (by omega)
    rw [if_neg (by omega), if_neg (by omega)]
    unfold fineDiv2 at this
    rw [g1, g2, g3, g4] at this
    rw [hp0]
    unfold blockFld
    have n1 := h1.ne'
    have n2 := h2.ne'
    field_simp at this ⊢
    linear_combination this
  · have l3 := low3 h (Or.inr e) e hm bad G P C x hx hK
    have u3 := up3 h (Or.inr e) e hm bad G P C x hx (y3 e) hK
    have g5 : (o.coarseFld P (o.coarseOf x)).x3 1 1 1 = P.B3 (o.coarseOf x) := by simp [coarseFld, disp]
    have g6 : (o.coarseFld P (o.coarseOf x)).x3 2 1 1 = P.B3 ((o.coarseOf x).1 + 1, (o.coarseOf x).2.1, (o.coarseOf x).2.2) := by simp [coarseFld, disp, e]
    have := proFld_div_coarse o.cf _ _ hko h1 h2 h3 (k := o.pn x) (j := o.pm x) (i := o.pl x) (by omega) (by omega) (by omega)
    rw [if_pos e, if_pos e, l3, u3]
    unfold fineDiv coarseDiv at this
    rw [g1, g2, g3, g4, g5, g6] at this
    unfold blockFld
    generalize proFld o.cf (o.coarseFld P (o.coarseOf x)) (o.fineFaces C (o.base x)) o.dx1 o.dx2 o.dx3 = F at *
    have n1 := h1.ne'
    have n2 := h2.ne'
    have n3 := h3.ne'
    field_simp at this ⊢
    linear_combination this

end thms

/-! ## Witnesses -/

/-- A 2D overlap of `2×2` zones of the parent whose lower x1-boundary is a boundary between levels. -/
def square : Ovl ℚ :=
  { ng := 4, nDim := 2, flx := fun d => d = 0, c := ⟨0, 0, 5, 6, 5, 6⟩, f := ⟨0, 0, 4, 7, 4, 7⟩, cf := ⟨false, true, false⟩, dx1 := 1, dx2 := 1, dx3 := 1 }

/-- A Grid with the given field normal to x1. -/
def bx (f : Z3 → ℚ) : PGrd ℚ 0 := ⟨fun _ => atRest 1, f, fun _ => 0, fun _ => 0⟩

/-- **Finding.**  The parent's field is uniform, the child's is its own on the boundary between the levels, with the same mean `(0 + 2)/2 = 1` on the face
of the parent's zone; but the first of the two values is exactly 0, `ProFld` takes it for "not known", and the ghost zone next to the boundary does
not have the parent's divergence 0. -/
theorem prolongate_div_false : ∃ (o : Ovl ℚ) (G : Fin 3 → Z3 → Cell ℚ 0) (P C : PGrd ℚ 0) (x : Z3), o.Fits ∧ o.nDim = 2 ∧ o.cf.mhd = true ∧
    (0 < o.dx1 ∧ 0 < o.dx2 ∧ 0 < o.dx3) ∧ o.Ghost x ∧ o.near (x.1, x.2.1, x.2.2 + 1) ∧ o.near (x.1, x.2.1 + 1, x.2.2) ∧ o.Matched P C x ∧
    o.divB P (2 * o.dx1) (2 * o.dx2) (2 * o.dx3) (o.coarseOf x) = 0 ∧ o.divB (o.prolongate (fun _ => false) G P C) o.dx1 o.dx2 o.dx3 x ≠ 0 := by
  refine ⟨square, fun _ _ => ⟨atRest 1, 0, 0, 0⟩, bx fun _ => 1, bx fun x => if x.2.2 = 4 then (if x.2.1 % 2 = 0 then 0 else 2) else 1, (0, 4, 3), ?_, rfl, rfl,
    ?_, by decide, by decide, by decide, ?_, by decide +kernel, ?_⟩
  · exact ⟨Or.inr (Or.inl rfl), ⟨2, rfl⟩, by decide, by decide, by decide, by decide, by decide, by decide, by decide, by decide⟩
  · exact ⟨by decide, by decide, by decide⟩
  · constructor <;> decide +kernel
  · decide +kernel

/-- A 3D overlap all of whose boundaries are boundaries between levels, with MHD. -/
def mcube : Ovl ℚ := { cube with cf := ⟨false, true, false⟩ }

/-- A parent with field `(2 + j, 0, 0)` and a child with its own, sheared field. -/
def shearP : PGrd ℚ 0 := bx fun x => 2 + x.2.1
def shearC : PGrd ℚ 0 := bx fun x => 2 + (5 + (x.2.1 - 4) / 2 - 1 / 4)

/-- The hypotheses of `prolongate_div_partial` on a ghost zone next to the boundary between the levels, whose upper faces are on it. -/
example : mcube.Fits ∧ mcube.Ghost (4, 5, 3) ∧ ¬ mcube.Ghost (4, 5, 4) ∧ mcube.near (4, 5, 4) ∧ mcube.near (4, 6, 3) ∧ mcube.near (5, 5, 3) ∧
    mcube.Inner (4, 4, 4) ∧ mcube.Matched shearP shearC (4, 5, 3) ∧ mcube.Known shearC (4, 5, 3) := by
  refine ⟨?_, by decide, by decide, by decide, by decide, by decide, by decide, ?_, ?_⟩
  · exact ⟨Or.inr (Or.inr rfl), ⟨2, rfl⟩, by decide, by decide, by decide, by decide, by decide, by decide, by decide, by decide⟩
  · constructor <;> decide +kernel
  · constructor <;> decide +kernel

end Ovl

end Athena.Smr
