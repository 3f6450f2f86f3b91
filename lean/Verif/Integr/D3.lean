import Verif.Integr.D2c

/-!
# The 3D van Leer integrator among the others, and what it shares with integrate_3d_ctu.c
-/

namespace Athena.Gen
open Athena.Bvals hiding Rng
open Athena.Vl3
open Num

section Model
variable {R : Type} {ns : ℕ} [NumC R]

/-- `dtodx1 = pG->dt/pG->dx1` etc., integrate_3d_vl.c:112, integrate_3d_ctu.c:130-136. -/
def coef (q : Step R) : Coef R := ⟨q.dt / q.dx1, q.dt / q.dx2, q.dt / q.dx3⟩
/-- `pG->dx1`, `pG->dx2`, `pG->dx3`. -/
def Step.dx (q : Step R) (t : Fin 3) : R := if t = 0 then q.dx1 else if t = 1 then q.dx2 else q.dx3
/-- The functions as called in integrate_3d_vl.c: `lr_states(pG,W1d,Bxc,pG->dt,pG->dx?,…)`, :837, :884, :929. -/
def Funs.vl (M : Funs R ns) (q : Step R) : Method R (Prim1 R ns) ns :=
  ⟨M.c2p1, M.p2c1, M.c2p, M.flux, fun t => M.lr q.dt (q.dx t) t⟩
/-- `integrate_3d_vl`. -/
def vl3 (M : Funs R ns) (q : Step R) (g : Rng) (J : Work R (Prim1 R ns) ns) (S : St R ns) : St R ns :=
  integrate (M.vl q) (coef q) g S J

end Model

section Lat
variable {R : Type} {ns : ℕ} [NumC R]

/-- The step of either integrator on a lattice, given its fluxes and edge electric fields. -/
def lat3 (q : Step R) (L : St R ns) (F1 F2 F3 : Arr (Cons1 R ns)) (e1 e2 e3 : Arr R) : St R ns :=
  let c := coef q
  let B1 : Arr R := fun k j i => L.B1i k j i + ct1 c.dtodx2 c.dtodx3 e2 e3 k j i
  let B2 : Arr R := fun k j i => L.B2i k j i + ct2 c.dtodx1 c.dtodx3 e1 e3 k j i
  let B3 : Arr R := fun k j i => L.B3i k j i + ct3 c.dtodx1 c.dtodx2 e1 e2 k j i
  ⟨fun k j i => upd3 c.dtodx3 (F3 (k+1) j i) (F3 k j i) (upd2 c.dtodx2 (F2 k (j+1) i) (F2 k j i)
    (upd1 c.dtodx1 (F1 k j (i+1)) (F1 k j i) (avgB B1 B2 B3 k j i (L.U k j i)))), B1, B2, B3⟩

/-- An array computed from a lattice in a way that commutes with translations. -/
def Equi {α : Type} (F : St R ns → Arr α) : Prop := ∀ L a b d k j i, F (L.shift a b d) k j i = F L (k+a) (j+b) (i+d)

theorem lat3_shift (q : Step R) {F1 F2 F3 : St R ns → Arr (Cons1 R ns)} {e1 e2 e3 : St R ns → Arr R}
    (h1 : Equi F1) (h2 : Equi F2) (h3 : Equi F3) (g1 : Equi e1) (g2 : Equi e2) (g3 : Equi e3) (L : St R ns) (a b d : ℤ) :
    (lat3 q L (F1 L) (F2 L) (F3 L) (e1 L) (e2 L) (e3 L)).shift a b d =
      (fun L => lat3 q L (F1 L) (F2 L) (F3 L) (e1 L) (e2 L) (e3 L)) (L.shift a b d) := by
  have k1 : F1 (L.shift a b d) = fun k j i => F1 L (k+a) (j+b) (i+d) := by funext k j i; exact h1 L a b d k j i
  have k2 : F2 (L.shift a b d) = fun k j i => F2 L (k+a) (j+b) (i+d) := by funext k j i; exact h2 L a b d k j i
  have k3 : F3 (L.shift a b d) = fun k j i => F3 L (k+a) (j+b) (i+d) := by funext k j i; exact h3 L a b d k j i
  have l1 : e1 (L.shift a b d) = fun k j i => e1 L (k+a) (j+b) (i+d) := by funext k j i; exact g1 L a b d k j i
  have l2 : e2 (L.shift a b d) = fun k j i => e2 L (k+a) (j+b) (i+d) := by funext k j i; exact g2 L a b d k j i
  have l3 : e3 (L.shift a b d) = fun k j i => e3 L (k+a) (j+b) (i+d) := by funext k j i; exact g3 L a b d k j i
  dsimp only
  rw [k1, k2, k3, l1, l2, l3]
  simp only [lat3, St.shift, avgB, ct1, ct2, ct3, pp]

variable {g : Rng} {S L : St R ns}

theorem agr3 (hg : RngOk A3 g) (ha : AgreeA A3 g S L) : g.Ok ∧ Agree g S L :=
  ⟨⟨hg.hi, hg.hj, hg.hk, hg.hng⟩, ⟨ha.U, ha.B1, ha.B2, ha.B3⟩⟩

/-- The updates of the active zones. -/
theorem act3 {q : Step R} (hg : RngOk A3 g) (ha : AgreeA A3 g S L) {F1 F2 F3 F1' F2' F3' : Arr (Cons1 R ns)}
    {e1 e2 e3 e1' e2' e3' : Arr R}
    (f1 : ∀ k j i, g.ks ≤ k → k ≤ g.ke → g.js ≤ j → j ≤ g.je → g.is ≤ i → i ≤ g.ie+1 → F1 k j i = F1' k j i)
    (f2 : ∀ k j i, g.ks ≤ k → k ≤ g.ke → g.js ≤ j → j ≤ g.je+1 → g.is ≤ i → i ≤ g.ie → F2 k j i = F2' k j i)
    (f3 : ∀ k j i, g.ks ≤ k → k ≤ g.ke+1 → g.js ≤ j → j ≤ g.je → g.is ≤ i → i ≤ g.ie → F3 k j i = F3' k j i)
    (x1 : ∀ k j i, g.ks ≤ k → k ≤ g.ke+1 → g.js ≤ j → j ≤ g.je+1 → g.is ≤ i → i ≤ g.ie → e1 k j i = e1' k j i)
    (x2 : ∀ k j i, g.ks ≤ k → k ≤ g.ke+1 → g.js ≤ j → j ≤ g.je → g.is ≤ i → i ≤ g.ie+1 → e2 k j i = e2' k j i)
    (x3 : ∀ k j i, g.ks ≤ k → k ≤ g.ke → g.js ≤ j → j ≤ g.je+1 → g.is ≤ i → i ≤ g.ie+1 → e3 k j i = e3' k j i) :
    ActEq A3 g (update (coef q) g S F1 F2 F3 e1 e2 e3) (lat3 q L F1' F2' F3' e1' e2' e3') := by
  obtain ⟨ho, h⟩ := agr3 hg ha
  have hn := ho.hng
  have b1 : ∀ k j i, g.ks ≤ k → k ≤ g.ke → g.js ≤ j → j ≤ g.je → g.is ≤ i → i ≤ g.ie+1 →
      ctB1 (coef q) g S e2 e3 k j i = L.B1i k j i + ct1 (coef q).dtodx2 (coef q).dtodx3 e2' e3' k j i := by
    intro k j i h1 h2 h3 h4 h5 h6
    rw [ctB1, addFaces1_in _ _ h1 h2 h3 h4 h5 h6]
    simp (disch := omega) only [ct1, x2, x3, h.B1]
  have b2 : ∀ k j i, g.ks ≤ k → k ≤ g.ke → g.js ≤ j → j ≤ g.je+1 → g.is ≤ i → i ≤ g.ie →
      ctB2 (coef q) g S e1 e3 k j i = L.B2i k j i + ct2 (coef q).dtodx1 (coef q).dtodx3 e1' e3' k j i := by
    intro k j i h1 h2 h3 h4 h5 h6
    rw [ctB2, addFaces2_in _ _ h1 h2 h3 h4 h5 h6]
    simp (disch := omega) only [ct2, x1, x3, h.B2]
  have b3 : ∀ k j i, g.ks ≤ k → k ≤ g.ke+1 → g.js ≤ j → j ≤ g.je → g.is ≤ i → i ≤ g.ie →
      ctB3 (coef q) g S e1 e2 k j i = L.B3i k j i + ct3 (coef q).dtodx1 (coef q).dtodx2 e1' e2' k j i := by
    intro k j i h1 h2 h3 h4 h5 h6
    rw [ctB3, addFaces3_in _ _ h1 h2 h3 h4 h5 h6]
    simp (disch := omega) only [ct3, x1, x2, h.B3]
  refine ⟨?_, b1, b2, b3⟩
  intro k j i h1 h2 h3 h4 h5 h6
  simp (disch := omega) only [update, lat3, actLoop_in, avgB, f1, f2, f3, b1, b2, b3, h.U]

/-- The step of `integrate_3d_vl` on a lattice. -/
def latV3 (M : Funs R ns) (q : Step R) (L : St R ns) : St R ns :=
  lat3 q L (jFlux1 (M.vl q) (coef q) L) (jFlux2 (M.vl q) (coef q) L) (jFlux3 (M.vl q) (coef q) L)
    (jEmf1 (M.vl q) (coef q) L) (jEmf2 (M.vl q) (coef q) L) (jEmf3 (M.vl q) (coef q) L)

theorem Funs.Local.vl {M : Funs R ns} (hM : M.Local) (q : Step R) : (M.vl q).Local :=
  fun _ _ _ _ _ h => hM _ _ _ _ _ _ _ h

theorem vl3_lattice (M : Funs R ns) (hM : M.Local) :
    Lattice A3 (fun q g (S : St R ns) J => vl3 M q g J S) (latV3 M) :=
  lattice_of (fun q L a b d => lat3_shift q (fun L => tFlux1 (M.vl q) (coef q) L) (fun L => tFlux2 (M.vl q) (coef q) L)
      (fun L => tFlux3 (M.vl q) (coef q) L) (fun L => tEmf1 (M.vl q) (coef q) L) (fun L => tEmf2 (M.vl q) (coef q) L)
      (fun L => tEmf3 (M.vl q) (coef q) L) L a b d)
    fun q g S L J hg ha => by
      obtain ⟨ho, h⟩ := agr3 hg ha
      have hn := ho.hng
      have hv := hM.vl q
      refine act3 hg ha ?_ ?_ ?_ ?_ ?_ ?_ <;> intro k j i h1 h2 h3 h4 h5 h6
      · exact bFlux1 hv ho h (by omega) (by omega) (by omega) (by omega) h5 h6
      · exact bFlux2 hv ho h (by omega) (by omega) h3 h4 (by omega) (by omega)
      · exact bFlux3 hv ho h h1 h2 (by omega) (by omega) (by omega) (by omega)
      · exact bEmf1 hv ho h h1 h2 h3 h4 h5 h6
      · exact bEmf2 hv ho h h1 h2 h3 h4 h5 h6
      · exact bEmf3 hv ho h h1 h2 h3 h4 h5 h6

end Lat

section Real
variable {ns : ℕ}

/-- The x3-flux of a conserved field. -/
def flx3 (f : Fld) (F : Cons1 ℝ ns) : ℝ :=
  match f with
  | .cell .d => F.d
  | .cell (.M n) => if n = 0 then F.My else if n = 1 then F.Mz else F.Mx
  | .cell .E => F.E
  | .cell (.Bc _) => 0
  | .cell (.s n) => if h : n < ns then F.s ⟨n, h⟩ else 0
  | .face _ => 0

theorem lat3_conserves (q : Step ℝ) {F1 F2 F3 : St ℝ ns → Arr (Cons1 ℝ ns)} {e1 e2 e3 : St ℝ ns → Arr ℝ}
    (h1 : Equi F1) (h2 : Equi F2) (h3 : Equi F3) (g1 : Equi e1) (g2 : Equi e2) (g3 : Equi e3) :
    Conserves A3 (fun L => lat3 q L (F1 L) (F2 L) (F3 L) (e1 L) (e2 L) (e3 L)) := by
  intro N L hL hN f hf is js ks
  cases f with
  | face n =>
    rcases three n with rfl | rfl | rfl
    · refine zsum_step (fun _ _ _ => 0) (e3 L) (e2 L) 0 (q.dt / q.dx2) (-(q.dt / q.dx3)) ?_ (by intros; rfl) (per2 hL e3 g3) (per3 hL e2 g2)
      intro k j i; simp [lval, lat3, ct1, coef]; ring
    · refine zsum_step (e3 L) (fun _ _ _ => 0) (e1 L) (-(q.dt / q.dx1)) 0 (q.dt / q.dx3) ?_ (per1 hL e3 g3) (by intros; rfl) (per3 hL e1 g1)
      intro k j i; simp [lval, lat3, ct2, coef]; ring
    · refine zsum_step (e2 L) (e1 L) (fun _ _ _ => 0) (q.dt / q.dx1) (-(q.dt / q.dx2)) 0 ?_ (per1 hL e2 g2) (per2 hL e1 g1) (by intros; rfl)
      intro k j i; simp [lval, lat3, ct3, coef]; ring
  | cell v =>
    refine zsum_step (fun k j i => flx1 (.cell v) (F1 L k j i)) (fun k j i => flx2 (.cell v) (F2 L k j i))
      (fun k j i => flx3 (.cell v) (F3 L k j i)) (q.dt / q.dx1) (q.dt / q.dx2) (q.dt / q.dx3) ?_ ?_ ?_ ?_
    · intro k j i
      cases v with
      | s n =>
        have hn : n < ns := hf
        simp only [lval, lat3, coef, upd1, upd2, upd3, avgB, Cons.get, flx1, flx2, flx3, dif_pos hn]
      | M n => rcases three n with rfl | rfl | rfl <;> simp [lval, lat3, coef, upd1, upd2, upd3, avgB, Cons.get, flx1, flx2, flx3]
      | Bc n => simp [Kept, A3] at hf
      | _ => simp [lval, lat3, coef, upd1, upd2, upd3, avgB, Cons.get, flx1, flx2, flx3]
    · intro k j i; rw [per1 hL F1 h1]
    · intro k j i; rw [per2 hL F2 h2]
    · intro k j i; rw [per3 hL F3 h3]

theorem upd3_divB (dt : ℝ) (dx : Fin 3 → ℝ) {Wk : Type} (F1 F2 F3 : Rng → St ℝ ns → Wk → Arr (Cons1 ℝ ns))
    (e1 e2 e3 : Rng → St ℝ ns → Wk → Arr ℝ) :
    KeepsDivB A3 dx (fun g S J => update (coef ⟨dt, dx 0, dx 1, dx 2⟩) g S (F1 g S J) (F2 g S J) (F3 g S J)
      (e1 g S J) (e2 g S J) (e3 g S J)) := by
  intro g S J k j i hg h1 h2 h3 h4 h5 h6
  have := update_divB dt (dx 0) (dx 1) (dx 2) g S (F1 g S J) (F2 g S J) (F3 g S J) (e1 g S J) (e2 g S J) (e3 g S J) h1 h2 h3 h4 h5 h6
  simp only [divA, A3, if_true]
  exact this

end Real
end Athena.Gen
