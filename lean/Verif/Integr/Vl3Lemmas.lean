import Verif.Integr.Vl3

/-!
# The integrator on an unbounded lattice

`i…` are the arrays of the integrator as they would be if there were no array bounds.  On a Grid whose data,
including ghost zones, agree with the lattice, the arrays of the integrator agree with these wherever they are
used to update the active zones.
-/

namespace Athena.Vl3
open Num

section Ideal
variable {R W : Type} {ns : ℕ} [Num R] (M : Method R W ns) (c : Coef R) (L : St R ns)

def iFlux1 : Arr (Cons1 R ns) := fun k j i =>
  flux1st M (load1 (L.U k j (i-1))) (load1 (L.U k j i)) (L.U k j (i-1)).B1c (L.U k j i).B1c (L.B1i k j i)
def iFlux2 : Arr (Cons1 R ns) := fun k j i =>
  flux1st M (load2 (L.U k (j-1) i)) (load2 (L.U k j i)) (L.U k (j-1) i).B2c (L.U k j i).B2c (L.B2i k j i)
def iFlux3 : Arr (Cons1 R ns) := fun k j i =>
  flux1st M (load3 (L.U (k-1) j i)) (load3 (L.U k j i)) (L.U (k-1) j i).B3c (L.U k j i).B3c (L.B3i k j i)
def iEcc1 : Arr R := fun k j i => ecc1 (M.c2p (L.U k j i))
def iEcc2 : Arr R := fun k j i => ecc2 (M.c2p (L.U k j i))
def iEcc3 : Arr R := fun k j i => ecc3 (M.c2p (L.U k j i))
def iEmf1 : Arr R := corner1 (iFlux2 M L) (iFlux3 M L) (iEcc1 M L)
def iEmf2 : Arr R := corner2 (iFlux1 M L) (iFlux3 M L) (iEcc2 M L)
def iEmf3 : Arr R := corner3 (iFlux1 M L) (iFlux2 M L) (iEcc3 M L)
def iB1F : Arr R := fun k j i =>
  L.B1i k j i + ct1 (half * c.dtodx2) (half * c.dtodx3) (iEmf2 M L) (iEmf3 M L) k j i
def iB2F : Arr R := fun k j i =>
  L.B2i k j i + ct2 (half * c.dtodx1) (half * c.dtodx3) (iEmf1 M L) (iEmf3 M L) k j i
def iB3F : Arr R := fun k j i =>
  L.B3i k j i + ct3 (half * c.dtodx1) (half * c.dtodx2) (iEmf1 M L) (iEmf2 M L) k j i
def iUhalf : Arr (Cons R ns) := fun k j i =>
  upd3 (half * c.dtodx3) (iFlux3 M L (k+1) j i) (iFlux3 M L k j i)
   (upd2 (half * c.dtodx2) (iFlux2 M L k (j+1) i) (iFlux2 M L k j i)
    (upd1 (half * c.dtodx1) (iFlux1 M L k j (i+1)) (iFlux1 M L k j i)
     (avgB (iB1F M c L) (iB2F M c L) (iB3F M c L) k j i (L.U k j i))))
def iLR1 (k j i : ℤ) : W × W :=
  M.lr 0 (fun m => M.c2p1 (load1 (iUhalf M c L k j (i+m))) (iUhalf M c L k j (i+m)).B1c)
    (fun m => (iUhalf M c L k j (i+m)).B1c)
def iLR2 (k j i : ℤ) : W × W :=
  M.lr 1 (fun m => M.c2p1 (load2 (iUhalf M c L k (j+m) i)) (iUhalf M c L k (j+m) i).B2c)
    (fun m => (iUhalf M c L k (j+m) i).B2c)
def iLR3 (k j i : ℤ) : W × W :=
  M.lr 2 (fun m => M.c2p1 (load3 (iUhalf M c L (k+m) j i)) (iUhalf M c L (k+m) j i).B3c)
    (fun m => (iUhalf M c L (k+m) j i).B3c)
def jFlux1 : Arr (Cons1 R ns) := fun k j i =>
  flux2nd M (iLR1 M c L k j i).1 (iLR1 M c L k j i).2 (iB1F M c L k j i)
def jFlux2 : Arr (Cons1 R ns) := fun k j i =>
  flux2nd M (iLR2 M c L k j i).1 (iLR2 M c L k j i).2 (iB2F M c L k j i)
def jFlux3 : Arr (Cons1 R ns) := fun k j i =>
  flux2nd M (iLR3 M c L k j i).1 (iLR3 M c L k j i).2 (iB3F M c L k j i)
def jEcc1 : Arr R := fun k j i => ecc1 (M.c2p (iUhalf M c L k j i))
def jEcc2 : Arr R := fun k j i => ecc2 (M.c2p (iUhalf M c L k j i))
def jEcc3 : Arr R := fun k j i => ecc3 (M.c2p (iUhalf M c L k j i))
def jEmf1 : Arr R := corner1 (jFlux2 M c L) (jFlux3 M c L) (jEcc1 M c L)
def jEmf2 : Arr R := corner2 (jFlux1 M c L) (jFlux3 M c L) (jEcc2 M c L)
def jEmf3 : Arr R := corner3 (jFlux1 M c L) (jFlux2 M c L) (jEcc3 M c L)
def jB1 : Arr R := fun k j i => L.B1i k j i + ct1 c.dtodx2 c.dtodx3 (jEmf2 M c L) (jEmf3 M c L) k j i
def jB2 : Arr R := fun k j i => L.B2i k j i + ct2 c.dtodx1 c.dtodx3 (jEmf1 M c L) (jEmf3 M c L) k j i
def jB3 : Arr R := fun k j i => L.B3i k j i + ct3 c.dtodx1 c.dtodx2 (jEmf1 M c L) (jEmf2 M c L) k j i
def jU : Arr (Cons R ns) := fun k j i =>
  upd3 c.dtodx3 (jFlux3 M c L (k+1) j i) (jFlux3 M c L k j i)
   (upd2 c.dtodx2 (jFlux2 M c L k (j+1) i) (jFlux2 M c L k j i)
    (upd1 c.dtodx1 (jFlux1 M c L k j (i+1)) (jFlux1 M c L k j i)
     (avgB (jB1 M c L) (jB2 M c L) (jB3 M c L) k j i (L.U k j i))))

end Ideal

/-! ## Translations -/

/-- The lattice seen from origin `(ok, oj, oi)`. -/
def St.shift {R : Type} {ns : ℕ} (L : St R ns) (ok oj oi : ℤ) : St R ns :=
  ⟨fun k j i => L.U (k+ok) (j+oj) (i+oi), fun k j i => L.B1i (k+ok) (j+oj) (i+oi),
   fun k j i => L.B2i (k+ok) (j+oj) (i+oi), fun k j i => L.B3i (k+ok) (j+oj) (i+oi)⟩

section Shift
variable {R W : Type} {ns : ℕ} [Num R] (M : Method R W ns) (c : Coef R) (L : St R ns) (ok oj oi k j i : ℤ)

theorem pm (a o : ℤ) : a - 1 + o = a + o - 1 := by omega
theorem pp (a o : ℤ) : a + 1 + o = a + o + 1 := by omega
theorem pq (a m o : ℤ) : a + m + o = a + o + m := by omega

theorem sFlux1 : iFlux1 M (L.shift ok oj oi) k j i = iFlux1 M L (k+ok) (j+oj) (i+oi) := by
  simp only [iFlux1, St.shift, pm]
theorem sFlux2 : iFlux2 M (L.shift ok oj oi) k j i = iFlux2 M L (k+ok) (j+oj) (i+oi) := by
  simp only [iFlux2, St.shift, pm]
theorem sFlux3 : iFlux3 M (L.shift ok oj oi) k j i = iFlux3 M L (k+ok) (j+oj) (i+oi) := by
  simp only [iFlux3, St.shift, pm]
theorem sEcc1 : iEcc1 M (L.shift ok oj oi) k j i = iEcc1 M L (k+ok) (j+oj) (i+oi) := rfl
theorem sEcc2 : iEcc2 M (L.shift ok oj oi) k j i = iEcc2 M L (k+ok) (j+oj) (i+oi) := rfl
theorem sEcc3 : iEcc3 M (L.shift ok oj oi) k j i = iEcc3 M L (k+ok) (j+oj) (i+oi) := rfl
theorem sEmf1 : iEmf1 M (L.shift ok oj oi) k j i = iEmf1 M L (k+ok) (j+oj) (i+oi) := by
  simp only [iEmf1, corner1, sFlux2, sFlux3, sEcc1, pm]
theorem sEmf2 : iEmf2 M (L.shift ok oj oi) k j i = iEmf2 M L (k+ok) (j+oj) (i+oi) := by
  simp only [iEmf2, corner2, sFlux1, sFlux3, sEcc2, pm]
theorem sEmf3 : iEmf3 M (L.shift ok oj oi) k j i = iEmf3 M L (k+ok) (j+oj) (i+oi) := by
  simp only [iEmf3, corner3, sFlux1, sFlux2, sEcc3, pm]
theorem sB1F : iB1F M c (L.shift ok oj oi) k j i = iB1F M c L (k+ok) (j+oj) (i+oi) := by
  simp only [iB1F, ct1, sEmf2, sEmf3, pp]; simp only [St.shift]
theorem sB2F : iB2F M c (L.shift ok oj oi) k j i = iB2F M c L (k+ok) (j+oj) (i+oi) := by
  simp only [iB2F, ct2, sEmf1, sEmf3, pp]; simp only [St.shift]
theorem sB3F : iB3F M c (L.shift ok oj oi) k j i = iB3F M c L (k+ok) (j+oj) (i+oi) := by
  simp only [iB3F, ct3, sEmf1, sEmf2, pp]; simp only [St.shift]
theorem sUhalf : iUhalf M c (L.shift ok oj oi) k j i = iUhalf M c L (k+ok) (j+oj) (i+oi) := by
  simp only [iUhalf, avgB, sFlux1, sFlux2, sFlux3, sB1F, sB2F, sB3F, pp]; simp only [St.shift]
theorem sLR1 : iLR1 M c (L.shift ok oj oi) k j i = iLR1 M c L (k+ok) (j+oj) (i+oi) := by
  simp only [iLR1, sUhalf, pq i _ oi]
theorem sLR2 : iLR2 M c (L.shift ok oj oi) k j i = iLR2 M c L (k+ok) (j+oj) (i+oi) := by
  simp only [iLR2, sUhalf, pq j _ oj]
theorem sLR3 : iLR3 M c (L.shift ok oj oi) k j i = iLR3 M c L (k+ok) (j+oj) (i+oi) := by
  simp only [iLR3, sUhalf, pq k _ ok]
theorem tFlux1 : jFlux1 M c (L.shift ok oj oi) k j i = jFlux1 M c L (k+ok) (j+oj) (i+oi) := by
  simp only [jFlux1, sLR1, sB1F]
theorem tFlux2 : jFlux2 M c (L.shift ok oj oi) k j i = jFlux2 M c L (k+ok) (j+oj) (i+oi) := by
  simp only [jFlux2, sLR2, sB2F]
theorem tFlux3 : jFlux3 M c (L.shift ok oj oi) k j i = jFlux3 M c L (k+ok) (j+oj) (i+oi) := by
  simp only [jFlux3, sLR3, sB3F]
theorem tEmf1 : jEmf1 M c (L.shift ok oj oi) k j i = jEmf1 M c L (k+ok) (j+oj) (i+oi) := by
  simp only [jEmf1, corner1, tFlux2, tFlux3, jEcc1, sUhalf, pm]
theorem tEmf2 : jEmf2 M c (L.shift ok oj oi) k j i = jEmf2 M c L (k+ok) (j+oj) (i+oi) := by
  simp only [jEmf2, corner2, tFlux1, tFlux3, jEcc2, sUhalf, pm]
theorem tEmf3 : jEmf3 M c (L.shift ok oj oi) k j i = jEmf3 M c L (k+ok) (j+oj) (i+oi) := by
  simp only [jEmf3, corner3, tFlux1, tFlux2, jEcc3, sUhalf, pm]
theorem tB1 : jB1 M c (L.shift ok oj oi) k j i = jB1 M c L (k+ok) (j+oj) (i+oi) := by
  simp only [jB1, ct1, tEmf2, tEmf3, pp]; simp only [St.shift]
theorem tB2 : jB2 M c (L.shift ok oj oi) k j i = jB2 M c L (k+ok) (j+oj) (i+oi) := by
  simp only [jB2, ct2, tEmf1, tEmf3, pp]; simp only [St.shift]
theorem tB3 : jB3 M c (L.shift ok oj oi) k j i = jB3 M c L (k+ok) (j+oj) (i+oi) := by
  simp only [jB3, ct3, tEmf1, tEmf2, pp]; simp only [St.shift]
theorem tU : jU M c (L.shift ok oj oi) k j i = jU M c L (k+ok) (j+oj) (i+oi) := by
  simp only [jU, avgB, tFlux1, tFlux2, tFlux3, tB1, tB2, tB3, pp]; simp only [St.shift]

end Shift

/-! ## Agreement of the integrator with the lattice -/

/-- The Grid has at least one zone in each direction and four ghost zones. -/
structure Rng.Ok (g : Rng) : Prop where
  hi : g.is ≤ g.ie
  hj : g.js ≤ g.je
  hk : g.ks ≤ g.ke
  hng : 4 ≤ g.ng

/-- The Grid's data agree with the lattice on the active and ghost zones (the interface fields on the first ghost
face of their own direction are not needed: the boundary functions do not set them). -/
structure Agree {R : Type} {ns : ℕ} (g : Rng) (S L : St R ns) : Prop where
  U : ∀ k j i, g.ks-g.ng ≤ k → k ≤ g.ke+g.ng → g.js-g.ng ≤ j → j ≤ g.je+g.ng → g.is-g.ng ≤ i → i ≤ g.ie+g.ng →
    S.U k j i = L.U k j i
  B1 : ∀ k j i, g.ks-g.ng ≤ k → k ≤ g.ke+g.ng → g.js-g.ng ≤ j → j ≤ g.je+g.ng → g.is-g.ng+1 ≤ i → i ≤ g.ie+g.ng →
    S.B1i k j i = L.B1i k j i
  B2 : ∀ k j i, g.ks-g.ng ≤ k → k ≤ g.ke+g.ng → g.js-g.ng+1 ≤ j → j ≤ g.je+g.ng → g.is-g.ng ≤ i → i ≤ g.ie+g.ng →
    S.B2i k j i = L.B2i k j i
  B3 : ∀ k j i, g.ks-g.ng+1 ≤ k → k ≤ g.ke+g.ng → g.js-g.ng ≤ j → j ≤ g.je+g.ng → g.is-g.ng ≤ i → i ≤ g.ie+g.ng →
    S.B3i k j i = L.B3i k j i

theorem loop3_in {α : Type} {kl ku jl ju il iu : ℤ} (f old : Arr α) {k j i : ℤ} (h1 : kl ≤ k) (h2 : k ≤ ku)
    (h3 : jl ≤ j) (h4 : j ≤ ju) (h5 : il ≤ i) (h6 : i ≤ iu) : loop3 kl ku jl ju il iu f old k j i = f k j i :=
  if_pos ⟨⟨h1, h2⟩, ⟨h3, h4⟩, ⟨h5, h6⟩⟩

theorem loop3_out {α : Type} {kl ku jl ju il iu : ℤ} (f old : Arr α) {k j i : ℤ}
    (h : ¬ ((kl ≤ k ∧ k ≤ ku) ∧ (jl ≤ j ∧ j ≤ ju) ∧ (il ≤ i ∧ i ≤ iu))) :
    loop3 kl ku jl ju il iu f old k j i = old k j i := if_neg h

theorem loop1_in {α : Type} {l u : ℤ} (f old : ℤ → α) {i : ℤ} (h1 : l ≤ i) (h2 : i ≤ u) :
    loop1 l u f old i = f i := if_pos ⟨h1, h2⟩

section Faces
variable {R : Type} [Num R] {kl ku jl ju il iu : ℤ} (f old : Arr R) {k j i : ℤ}

theorem addFaces1_in (h1 : kl ≤ k) (h2 : k ≤ ku) (h3 : jl ≤ j) (h4 : j ≤ ju) (h5 : il ≤ i) (h6 : i ≤ iu+1) :
    addFaces1 kl ku jl ju il iu f old k j i = old k j i + f k j i := by
  unfold addFaces1
  by_cases h : i = iu+1
  · rw [loop3_in _ _ h1 h2 h3 h4 (by omega) h6, loop3_out _ _ (by omega)]
  · rw [loop3_out _ _ (by omega), loop3_in _ _ h1 h2 h3 h4 h5 (by omega)]

theorem addFaces2_in (h1 : kl ≤ k) (h2 : k ≤ ku) (h3 : jl ≤ j) (h4 : j ≤ ju+1) (h5 : il ≤ i) (h6 : i ≤ iu) :
    addFaces2 kl ku jl ju il iu f old k j i = old k j i + f k j i := by
  unfold addFaces2
  by_cases h : j = ju+1
  · rw [loop3_in _ _ h1 h2 (by omega) h4 h5 h6, loop3_out _ _ (by omega)]
  · rw [loop3_out _ _ (by omega), loop3_in _ _ h1 h2 h3 (by omega) h5 h6]

theorem addFaces3_in (h1 : kl ≤ k) (h2 : k ≤ ku+1) (h3 : jl ≤ j) (h4 : j ≤ ju) (h5 : il ≤ i) (h6 : i ≤ iu) :
    addFaces3 kl ku jl ju il iu f old k j i = old k j i + f k j i := by
  unfold addFaces3
  by_cases h : k = ku+1
  · rw [loop3_in _ _ (by omega) h2 h3 h4 h5 h6, loop3_out _ _ (by omega)]
  · rw [loop3_out _ _ (by omega), loop3_in _ _ h1 (by omega) h3 h4 h5 h6]

end Faces

section Agreement
variable {R W : Type} {ns : ℕ} [Num R] {M : Method R W ns} {c : Coef R} {g : Rng} {S L : St R ns} {J : Work R W ns}
variable (hg : g.Ok) (ha : Agree g S L)
include hg ha

theorem aFlux1 {k j i : ℤ} (h1 : g.ks-g.ng ≤ k) (h2 : k ≤ g.ke+g.ng) (h3 : g.js-g.ng ≤ j) (h4 : j ≤ g.je+g.ng)
    (h5 : g.is-g.ng+1 ≤ i) (h6 : i ≤ g.ie+g.ng) : xFlux1 M g S J k j i = iFlux1 M L k j i := by
  have := hg.hng
  rw [xFlux1, loop3_in _ _ h1 h2 h3 h4 (by omega) h6]
  simp (disch := omega) only [iFlux1, ha.U, ha.B1]
theorem aFlux2 {k j i : ℤ} (h1 : g.ks-g.ng ≤ k) (h2 : k ≤ g.ke+g.ng) (h3 : g.js-g.ng+1 ≤ j) (h4 : j ≤ g.je+g.ng)
    (h5 : g.is-g.ng ≤ i) (h6 : i ≤ g.ie+g.ng) : xFlux2 M g S J k j i = iFlux2 M L k j i := by
  have := hg.hng
  rw [xFlux2, loop3_in _ _ h1 h2 (by omega) h4 h5 h6]
  simp (disch := omega) only [iFlux2, ha.U, ha.B2]
theorem aFlux3 {k j i : ℤ} (h1 : g.ks-g.ng+1 ≤ k) (h2 : k ≤ g.ke+g.ng) (h3 : g.js-g.ng ≤ j) (h4 : j ≤ g.je+g.ng)
    (h5 : g.is-g.ng ≤ i) (h6 : i ≤ g.ie+g.ng) : xFlux3 M g S J k j i = iFlux3 M L k j i := by
  have := hg.hng
  rw [xFlux3, loop3_in _ _ (by omega) h2 h3 h4 h5 h6]
  simp (disch := omega) only [iFlux3, ha.U, ha.B3]

theorem aEcc1 {k j i : ℤ} (h1 : g.ks-g.ng ≤ k) (h2 : k ≤ g.ke+g.ng) (h3 : g.js-g.ng ≤ j) (h4 : j ≤ g.je+g.ng)
    (h5 : g.is-g.ng ≤ i) (h6 : i ≤ g.ie+g.ng) : xEcc1 M g S J k j i = iEcc1 M L k j i := by
  have := hg.hng
  rw [xEcc1, loop3_in _ _ h1 h2 h3 h4 h5 h6]; simp (disch := omega) only [iEcc1, ha.U]
theorem aEcc2 {k j i : ℤ} (h1 : g.ks-g.ng ≤ k) (h2 : k ≤ g.ke+g.ng) (h3 : g.js-g.ng ≤ j) (h4 : j ≤ g.je+g.ng)
    (h5 : g.is-g.ng ≤ i) (h6 : i ≤ g.ie+g.ng) : xEcc2 M g S J k j i = iEcc2 M L k j i := by
  have := hg.hng
  rw [xEcc2, loop3_in _ _ h1 h2 h3 h4 h5 h6]; simp (disch := omega) only [iEcc2, ha.U]
theorem aEcc3 {k j i : ℤ} (h1 : g.ks-g.ng ≤ k) (h2 : k ≤ g.ke+g.ng) (h3 : g.js-g.ng ≤ j) (h4 : j ≤ g.je+g.ng)
    (h5 : g.is-g.ng ≤ i) (h6 : i ≤ g.ie+g.ng) : xEcc3 M g S J k j i = iEcc3 M L k j i := by
  have := hg.hng
  rw [xEcc3, loop3_in _ _ h1 h2 h3 h4 h5 h6]; simp (disch := omega) only [iEcc3, ha.U]

theorem aEmf1 {k j i : ℤ} (h1 : g.ks-g.ng+1 ≤ k) (h2 : k ≤ g.ke+g.ng) (h3 : g.js-g.ng+1 ≤ j) (h4 : j ≤ g.je+g.ng)
    (h5 : g.is-g.ng+1 ≤ i) (h6 : i ≤ g.ie+g.ng-1) : xEmf1 M g S J k j i = iEmf1 M L k j i := by
  have := hg.hng
  rw [xEmf1, cornerLoop1, loop3_in _ _ (by omega) (by omega) (by omega) (by omega) (by omega) (by omega)]
  simp (disch := omega) only [iEmf1, corner1, aFlux2 hg ha, aFlux3 hg ha, aEcc1 hg ha]
theorem aEmf2 {k j i : ℤ} (h1 : g.ks-g.ng+1 ≤ k) (h2 : k ≤ g.ke+g.ng) (h3 : g.js-g.ng+1 ≤ j) (h4 : j ≤ g.je+g.ng-1)
    (h5 : g.is-g.ng+1 ≤ i) (h6 : i ≤ g.ie+g.ng) : xEmf2 M g S J k j i = iEmf2 M L k j i := by
  have := hg.hng
  rw [xEmf2, cornerLoop2, loop3_in _ _ (by omega) (by omega) (by omega) (by omega) (by omega) (by omega)]
  simp (disch := omega) only [iEmf2, corner2, aFlux1 hg ha, aFlux3 hg ha, aEcc2 hg ha]
theorem aEmf3 {k j i : ℤ} (h1 : g.ks-g.ng+1 ≤ k) (h2 : k ≤ g.ke+g.ng-1) (h3 : g.js-g.ng+1 ≤ j) (h4 : j ≤ g.je+g.ng)
    (h5 : g.is-g.ng+1 ≤ i) (h6 : i ≤ g.ie+g.ng) : xEmf3 M g S J k j i = iEmf3 M L k j i := by
  have := hg.hng
  rw [xEmf3, cornerLoop3, loop3_in _ _ (by omega) (by omega) (by omega) (by omega) (by omega) (by omega)]
  simp (disch := omega) only [iEmf3, corner3, aFlux1 hg ha, aFlux2 hg ha, aEcc3 hg ha]

theorem aB1F {k j i : ℤ} (h1 : g.ks-g.ng+1 ≤ k) (h2 : k ≤ g.ke+g.ng-1) (h3 : g.js-g.ng+1 ≤ j) (h4 : j ≤ g.je+g.ng-1)
    (h5 : g.is-g.ng+1 ≤ i) (h6 : i ≤ g.ie+g.ng) : xB1F M c g S J k j i = iB1F M c L k j i := by
  have := hg.hng
  rw [xB1F, addFaces1_in _ _ (by omega) (by omega) (by omega) (by omega) (by omega) (by omega), copyIn,
    loop3_in _ _ (by omega) (by omega) (by omega) (by omega) (by omega) (by omega)]
  simp (disch := omega) only [iB1F, ct1, aEmf2 hg ha, aEmf3 hg ha, ha.B1]
theorem aB2F {k j i : ℤ} (h1 : g.ks-g.ng+1 ≤ k) (h2 : k ≤ g.ke+g.ng-1) (h3 : g.js-g.ng+1 ≤ j) (h4 : j ≤ g.je+g.ng)
    (h5 : g.is-g.ng+1 ≤ i) (h6 : i ≤ g.ie+g.ng-1) : xB2F M c g S J k j i = iB2F M c L k j i := by
  have := hg.hng
  rw [xB2F, addFaces2_in _ _ (by omega) (by omega) (by omega) (by omega) (by omega) (by omega), copyIn,
    loop3_in _ _ (by omega) (by omega) (by omega) (by omega) (by omega) (by omega)]
  simp (disch := omega) only [iB2F, ct2, aEmf1 hg ha, aEmf3 hg ha, ha.B2]
theorem aB3F {k j i : ℤ} (h1 : g.ks-g.ng+1 ≤ k) (h2 : k ≤ g.ke+g.ng) (h3 : g.js-g.ng+1 ≤ j) (h4 : j ≤ g.je+g.ng-1)
    (h5 : g.is-g.ng+1 ≤ i) (h6 : i ≤ g.ie+g.ng-1) : xB3F M c g S J k j i = iB3F M c L k j i := by
  have := hg.hng
  rw [xB3F, addFaces3_in _ _ (by omega) (by omega) (by omega) (by omega) (by omega) (by omega), copyIn,
    loop3_in _ _ (by omega) (by omega) (by omega) (by omega) (by omega) (by omega)]
  simp (disch := omega) only [iB3F, ct3, aEmf1 hg ha, aEmf2 hg ha, ha.B3]

omit [Num R] hg ha in
theorem halfLoop_in (f : ℤ → ℤ → ℤ → Cons R ns → Cons R ns) (old : Arr (Cons R ns)) {k j i : ℤ}
    (h1 : g.ks-g.ng+1 ≤ k) (h2 : k ≤ g.ke+g.ng-1) (h3 : g.js-g.ng+1 ≤ j) (h4 : j ≤ g.je+g.ng-1)
    (h5 : g.is-g.ng+1 ≤ i) (h6 : i ≤ g.ie+g.ng-1) : halfLoop g f old k j i = f k j i (old k j i) := by
  rw [halfLoop, loop3_in _ _ (by omega) (by omega) (by omega) (by omega) (by omega) (by omega)]

theorem aUhalf {k j i : ℤ} (h1 : g.ks-g.ng+1 ≤ k) (h2 : k ≤ g.ke+g.ng-1) (h3 : g.js-g.ng+1 ≤ j) (h4 : j ≤ g.je+g.ng-1)
    (h5 : g.is-g.ng+1 ≤ i) (h6 : i ≤ g.ie+g.ng-1) : xUhalf M c g S J k j i = iUhalf M c L k j i := by
  have := hg.hng
  simp (disch := omega) only [xUhalf, halfLoop_in, copyIn, loop3_in]
  simp (disch := omega) only [iUhalf, avgB, aFlux1 hg ha, aFlux2 hg ha, aFlux3 hg ha, aB1F hg ha, aB2F hg ha,
    aB3F hg ha, ha.U]

end Agreement
section Corrector
variable {R W : Type} {ns : ℕ} [Num R] {M : Method R W ns} {c : Coef R} {g : Rng} {S L : St R ns} {J : Work R W ns}
variable (hM : M.Local) (hg : g.Ok) (ha : Agree g S L)
include hM hg ha

theorem aLR1 {k j i : ℤ} (h1 : g.ks-1 ≤ k) (h2 : k ≤ g.ke+1) (h3 : g.js-1 ≤ j) (h4 : j ≤ g.je+1)
    (h5 : g.is ≤ i) (h6 : i ≤ g.ie+1) : xLR1 M c g S J k j i = iLR1 M c L k j i := by
  have := hg.hng
  refine hM _ _ _ _ _ fun m hm hm' => ?_
  simp (disch := omega) only [loop1_in, aUhalf hg ha, and_self]
theorem aLR2 {k j i : ℤ} (h1 : g.ks-1 ≤ k) (h2 : k ≤ g.ke+1) (h3 : g.js ≤ j) (h4 : j ≤ g.je+1)
    (h5 : g.is-1 ≤ i) (h6 : i ≤ g.ie+1) : xLR2 M c g S J k j i = iLR2 M c L k j i := by
  have := hg.hng
  refine hM _ _ _ _ _ fun m hm hm' => ?_
  simp (disch := omega) only [loop1_in, aUhalf hg ha, and_self]
theorem aLR3 {k j i : ℤ} (h1 : g.ks ≤ k) (h2 : k ≤ g.ke+1) (h3 : g.js-1 ≤ j) (h4 : j ≤ g.je+1)
    (h5 : g.is-1 ≤ i) (h6 : i ≤ g.ie+1) : xLR3 M c g S J k j i = iLR3 M c L k j i := by
  have := hg.hng
  refine hM _ _ _ _ _ fun m hm hm' => ?_
  simp (disch := omega) only [loop1_in, aUhalf hg ha, and_self]

theorem bFlux1 {k j i : ℤ} (h1 : g.ks-1 ≤ k) (h2 : k ≤ g.ke+1) (h3 : g.js-1 ≤ j) (h4 : j ≤ g.je+1)
    (h5 : g.is ≤ i) (h6 : i ≤ g.ie+1) : yFlux1 M c g S J k j i = jFlux1 M c L k j i := by
  have := hg.hng
  simp (disch := omega) only [yFlux1, xFace1, loop3_in, jFlux1, aLR1 hM hg ha, aB1F hg ha, if_true,
    Bool.false_eq_true, if_false]
theorem bFlux2 {k j i : ℤ} (h1 : g.ks-1 ≤ k) (h2 : k ≤ g.ke+1) (h3 : g.js ≤ j) (h4 : j ≤ g.je+1)
    (h5 : g.is-1 ≤ i) (h6 : i ≤ g.ie+1) : yFlux2 M c g S J k j i = jFlux2 M c L k j i := by
  have := hg.hng
  simp (disch := omega) only [yFlux2, xFace2, loop3_in, jFlux2, aLR2 hM hg ha, aB2F hg ha, if_true,
    Bool.false_eq_true, if_false]
theorem bFlux3 {k j i : ℤ} (h1 : g.ks ≤ k) (h2 : k ≤ g.ke+1) (h3 : g.js-1 ≤ j) (h4 : j ≤ g.je+1)
    (h5 : g.is-1 ≤ i) (h6 : i ≤ g.ie+1) : yFlux3 M c g S J k j i = jFlux3 M c L k j i := by
  have := hg.hng
  simp (disch := omega) only [yFlux3, xFace3, loop3_in, jFlux3, aLR3 hM hg ha, aB3F hg ha, if_true,
    Bool.false_eq_true, if_false]

omit hM in
theorem bEcc1 {k j i : ℤ} (h1 : g.ks-1 ≤ k) (h2 : k ≤ g.ke+1) (h3 : g.js-1 ≤ j) (h4 : j ≤ g.je+1)
    (h5 : g.is-1 ≤ i) (h6 : i ≤ g.ie+1) : yEcc1 M c g S J k j i = jEcc1 M c L k j i := by
  have := hg.hng
  simp (disch := omega) only [yEcc1, loop3_in, jEcc1, aUhalf hg ha]
omit hM in
theorem bEcc2 {k j i : ℤ} (h1 : g.ks-1 ≤ k) (h2 : k ≤ g.ke+1) (h3 : g.js-1 ≤ j) (h4 : j ≤ g.je+1)
    (h5 : g.is-1 ≤ i) (h6 : i ≤ g.ie+1) : yEcc2 M c g S J k j i = jEcc2 M c L k j i := by
  have := hg.hng
  simp (disch := omega) only [yEcc2, loop3_in, jEcc2, aUhalf hg ha]
omit hM in
theorem bEcc3 {k j i : ℤ} (h1 : g.ks-1 ≤ k) (h2 : k ≤ g.ke+1) (h3 : g.js-1 ≤ j) (h4 : j ≤ g.je+1)
    (h5 : g.is-1 ≤ i) (h6 : i ≤ g.ie+1) : yEcc3 M c g S J k j i = jEcc3 M c L k j i := by
  have := hg.hng
  simp (disch := omega) only [yEcc3, loop3_in, jEcc3, aUhalf hg ha]

theorem bEmf1 {k j i : ℤ} (h1 : g.ks ≤ k) (h2 : k ≤ g.ke+1) (h3 : g.js ≤ j) (h4 : j ≤ g.je+1)
    (h5 : g.is ≤ i) (h6 : i ≤ g.ie) : yEmf1 M c g S J k j i = jEmf1 M c L k j i := by
  have := hg.hng
  rw [yEmf1, cornerLoop1, loop3_in _ _ (by omega) (by omega) (by omega) (by omega) (by omega) (by omega)]
  simp (disch := omega) only [jEmf1, corner1, bFlux2 hM hg ha, bFlux3 hM hg ha, bEcc1 hg ha]
theorem bEmf2 {k j i : ℤ} (h1 : g.ks ≤ k) (h2 : k ≤ g.ke+1) (h3 : g.js ≤ j) (h4 : j ≤ g.je)
    (h5 : g.is ≤ i) (h6 : i ≤ g.ie+1) : yEmf2 M c g S J k j i = jEmf2 M c L k j i := by
  have := hg.hng
  rw [yEmf2, cornerLoop2, loop3_in _ _ (by omega) (by omega) (by omega) (by omega) (by omega) (by omega)]
  simp (disch := omega) only [jEmf2, corner2, bFlux1 hM hg ha, bFlux3 hM hg ha, bEcc2 hg ha]
theorem bEmf3 {k j i : ℤ} (h1 : g.ks ≤ k) (h2 : k ≤ g.ke) (h3 : g.js ≤ j) (h4 : j ≤ g.je+1)
    (h5 : g.is ≤ i) (h6 : i ≤ g.ie+1) : yEmf3 M c g S J k j i = jEmf3 M c L k j i := by
  have := hg.hng
  rw [yEmf3, cornerLoop3, loop3_in _ _ (by omega) (by omega) (by omega) (by omega) (by omega) (by omega)]
  simp (disch := omega) only [jEmf3, corner3, bFlux1 hM hg ha, bFlux2 hM hg ha, bEcc3 hg ha]

theorem bB1 {k j i : ℤ} (h1 : g.ks ≤ k) (h2 : k ≤ g.ke) (h3 : g.js ≤ j) (h4 : j ≤ g.je)
    (h5 : g.is ≤ i) (h6 : i ≤ g.ie+1) : (integrate M c g S J).B1i k j i = jB1 M c L k j i := by
  have := hg.hng
  simp only [integrate, update, ctB1]
  rw [addFaces1_in _ _ h1 h2 h3 h4 h5 h6]
  simp (disch := omega) only [jB1, ct1, bEmf2 hM hg ha, bEmf3 hM hg ha, ha.B1]
theorem bB2 {k j i : ℤ} (h1 : g.ks ≤ k) (h2 : k ≤ g.ke) (h3 : g.js ≤ j) (h4 : j ≤ g.je+1)
    (h5 : g.is ≤ i) (h6 : i ≤ g.ie) : (integrate M c g S J).B2i k j i = jB2 M c L k j i := by
  have := hg.hng
  simp only [integrate, update, ctB2]
  rw [addFaces2_in _ _ h1 h2 h3 h4 h5 h6]
  simp (disch := omega) only [jB2, ct2, bEmf1 hM hg ha, bEmf3 hM hg ha, ha.B2]
theorem bB3 {k j i : ℤ} (h1 : g.ks ≤ k) (h2 : k ≤ g.ke+1) (h3 : g.js ≤ j) (h4 : j ≤ g.je)
    (h5 : g.is ≤ i) (h6 : i ≤ g.ie) : (integrate M c g S J).B3i k j i = jB3 M c L k j i := by
  have := hg.hng
  simp only [integrate, update, ctB3]
  rw [addFaces3_in _ _ h1 h2 h3 h4 h5 h6]
  simp (disch := omega) only [jB3, ct3, bEmf1 hM hg ha, bEmf2 hM hg ha, ha.B3]

omit [Num R] hM hg ha in
theorem actLoop_in (f : ℤ → ℤ → ℤ → Cons R ns → Cons R ns) (old : Arr (Cons R ns)) {k j i : ℤ}
    (h1 : g.ks ≤ k) (h2 : k ≤ g.ke) (h3 : g.js ≤ j) (h4 : j ≤ g.je)
    (h5 : g.is ≤ i) (h6 : i ≤ g.ie) : actLoop g f old k j i = f k j i (old k j i) := by
  rw [actLoop, loop3_in _ _ h1 h2 h3 h4 h5 h6]

theorem bU {k j i : ℤ} (h1 : g.ks ≤ k) (h2 : k ≤ g.ke) (h3 : g.js ≤ j) (h4 : j ≤ g.je)
    (h5 : g.is ≤ i) (h6 : i ≤ g.ie) : (integrate M c g S J).U k j i = jU M c L k j i := by
  have := hg.hng
  have e1 := @bB1 R W ns _ M c g S L J hM hg ha
  have e2 := @bB2 R W ns _ M c g S L J hM hg ha
  have e3 := @bB3 R W ns _ M c g S L J hM hg ha
  simp only [integrate, update] at e1 e2 e3 ⊢
  simp (disch := omega) only [actLoop_in, jU, avgB, bFlux1 hM hg ha, bFlux2 hM hg ha, bFlux3 hM hg ha, e1, e2, e3, ha.U]

end Corrector
end Athena.Vl3
