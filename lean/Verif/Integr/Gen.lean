import Verif.Integr.Vl3RunCons

/-!
# Runs with any integrator in one, two or three dimensions

src/main.c:498-560 for one Domain: `Integrate` on the Grids, then `bvals_mhd`.  `I` is the integrator as a function of
the time step and zone sizes, the index ranges, the contents of the Grid and of the static work arrays.  The
theorems of this file hold for every integrator that acts locally (`Lattice`).
-/

namespace Athena.Gen
open Athena.Bvals hiding Rng
open Athena.Vl3

/-- An integrator. `Q` stands for the time step and the zone sizes, `Wk` for its static work arrays. -/
abbrev Integ (Q R Wk : Type) (ns : ℕ) := Q → Rng → St R ns → Wk → St R ns

variable {Q R Wk : Type} {ns : ℕ}

/-- `(*Integrate)(pD)` on one Grid. -/
def advance (I : Integ Q R Wk ns) (q : Q) (ng : ℕ) (J : Wk) (g : Grid R) : Grid R :=
  ofSt g (I q (rngOf (cfg ng ns) g.nx) (toSt ns g) J)

/-- A run on the Domain `D`: in cycle `n` every Grid is integrated with the time step and zone sizes `q n`, starting
from some contents `J n` of the work arrays, then `bvals_mhd` is called, with messages completing in the
order `o n`; src/main.c:498-560. -/
def IsRun [Neg R] [Zero R] (I : Integ Q R Wk ns) (q : ℕ → Q) (ng sz : ℕ) (D : Dom) (o : ℕ → Fin 3 → Coord → Bool)
    (J : ℕ → Coord → Wk) (s : ℕ → Coord → Grid R) : Prop :=
  ∀ n C, D.Has C → bvals (cfg ng ns) sz D (o n) (fun C => advance I (q n) ng (J n C) (s n C)) C = .ok (s (n+1) C)

/-- The directions with more than one zone are those of `A`. -/
def HasDim (A : Fin 3 → Bool) (nx : Fin 3 → ℕ) : Prop := ∀ t, (1 < nx t ↔ A t = true) ∧ (A t = false → nx t = 1)

/-- The values `h` of every field that is stored. -/
def AgreeG (ng : ℕ) (g : Grid R) (L : St R ns) : Prop :=
  ∀ f : Fld, f.In (cfg ng ns) → ∀ y, Stored (cfg ng ns) g.nx f y → f.val g y = f.val (ofSt g L) y

/-- `lat` is the integrator on an unbounded lattice: it commutes with translations, and a Grid whose zones and
faces, ghosts included, hold the values of a lattice has on its active zones and faces the values of the lattice
after the step, whatever the work arrays contained. -/
structure Lattice (A : Fin 3 → Bool) (I : Integ Q R Wk ns) (lat : Q → St R ns → St R ns) : Prop where
  shift : ∀ q L a b d, (lat q L).shift a b d = lat q (L.shift a b d)
  active : ∀ q ng J (g : Grid R) L, 4 ≤ ng → HasDim A g.nx → AgreeG ng g L →
    ∀ f : Fld, f.In (cfg ng ns) → ∀ y, Active (cfg ng ns) g.nx f y →
      f.val (advance I q ng J g) y = f.val (ofSt g (lat q L)) y

/-! ## From index ranges to Grids -/

/-- Number of ghost zones in a direction. -/
def wid (a : Bool) (ng : ℤ) : ℤ := if a then ng else 0

/-- Index ranges of a Grid with the directions `A`. -/
structure RngOk (A : Fin 3 → Bool) (g : Rng) : Prop where
  hi : g.is ≤ g.ie
  hj : g.js ≤ g.je
  hk : g.ks ≤ g.ke
  ci : A 0 = false → g.ie = g.is
  cj : A 1 = false → g.je = g.js
  ck : A 2 = false → g.ke = g.ks
  hng : 4 ≤ g.ng

/-- The Grid's data agree with the lattice on active and ghost zones and faces (except the first ghost face
of the own direction). -/
structure AgreeA (A : Fin 3 → Bool) (g : Rng) (S L : St R ns) : Prop where
  U : ∀ k j i, g.ks - wid (A 2) g.ng ≤ k → k ≤ g.ke + wid (A 2) g.ng → g.js - wid (A 1) g.ng ≤ j → j ≤ g.je + wid (A 1) g.ng →
    g.is - wid (A 0) g.ng ≤ i → i ≤ g.ie + wid (A 0) g.ng → S.U k j i = L.U k j i
  B1 : ∀ k j i, g.ks - wid (A 2) g.ng ≤ k → k ≤ g.ke + wid (A 2) g.ng → g.js - wid (A 1) g.ng ≤ j → j ≤ g.je + wid (A 1) g.ng →
    g.is - wid (A 0) g.ng + wid (A 0) 1 ≤ i → i ≤ g.ie + wid (A 0) g.ng → S.B1i k j i = L.B1i k j i
  B2 : ∀ k j i, g.ks - wid (A 2) g.ng ≤ k → k ≤ g.ke + wid (A 2) g.ng → g.js - wid (A 1) g.ng + wid (A 1) 1 ≤ j → j ≤ g.je + wid (A 1) g.ng →
    g.is - wid (A 0) g.ng ≤ i → i ≤ g.ie + wid (A 0) g.ng → S.B2i k j i = L.B2i k j i
  B3 : ∀ k j i, g.ks - wid (A 2) g.ng + wid (A 2) 1 ≤ k → k ≤ g.ke + wid (A 2) g.ng → g.js - wid (A 1) g.ng ≤ j → j ≤ g.je + wid (A 1) g.ng →
    g.is - wid (A 0) g.ng ≤ i → i ≤ g.ie + wid (A 0) g.ng → S.B3i k j i = L.B3i k j i

/-- Agreement on the active zones and faces. -/
structure ActEq (A : Fin 3 → Bool) (g : Rng) (S L : St R ns) : Prop where
  U : ∀ k j i, g.ks ≤ k → k ≤ g.ke → g.js ≤ j → j ≤ g.je → g.is ≤ i → i ≤ g.ie → S.U k j i = L.U k j i
  B1 : ∀ k j i, g.ks ≤ k → k ≤ g.ke → g.js ≤ j → j ≤ g.je → g.is ≤ i → i ≤ g.ie + wid (A 0) 1 → S.B1i k j i = L.B1i k j i
  B2 : ∀ k j i, g.ks ≤ k → k ≤ g.ke → g.js ≤ j → j ≤ g.je + wid (A 1) 1 → g.is ≤ i → i ≤ g.ie → S.B2i k j i = L.B2i k j i
  B3 : ∀ k j i, g.ks ≤ k → k ≤ g.ke + wid (A 2) 1 → g.js ≤ j → j ≤ g.je → g.is ≤ i → i ≤ g.ie → S.B3i k j i = L.B3i k j i

theorem HasDim.cases {A : Fin 3 → Bool} {nx : Fin 3 → ℕ} (h : HasDim A nx) (c : Cfg) (t : Fin 3) :
    (A t = true ∧ lo c nx t = c.ng ∧ hi c nx t = nx t + c.ng - 1 ∧ size c nx t = nx t + 2 * c.ng ∧ 1 < nx t) ∨
    (A t = false ∧ lo c nx t = 0 ∧ hi c nx t = 0 ∧ size c nx t = 1 ∧ nx t = 1) := by
  rcases Bool.eq_false_or_eq_true (A t) with ha | ha
  · have := (h t).1.2 ha
    left
    simp only [lo, hi, size, if_pos this]
    exact ⟨ha, trivial, trivial, trivial, this⟩
  · have h1 := (h t).2 ha
    have : ¬ nx t > 1 := by omega
    right
    simp only [lo, hi, size, if_neg this]
    exact ⟨ha, trivial, trivial, trivial, h1⟩

theorem rngOk {A : Fin 3 → Bool} {nx : Fin 3 → ℕ} {ng : ℕ} (hng : 4 ≤ ng) (h : HasDim A nx) : RngOk A (rngOf (cfg ng ns) nx) := by
  have h0 := h.cases (cfg ng ns) 0; have h1 := h.cases (cfg ng ns) 1; have h2 := h.cases (cfg ng ns) 2
  have e : (cfg ng ns).ng = ng := rfl
  constructor <;> simp only [rngOf]
  · omega
  · omega
  · omega
  · intro ha; rw [ha] at h0; simp at h0; omega
  · intro ha; rw [ha] at h1; simp at h1; omega
  · intro ha; rw [ha] at h2; simp at h2; omega
  · omega

theorem extra_dim {A : Fin 3 → Bool} {nx : Fin 3 → ℕ} (h : HasDim A nx) (n t : Fin 3) :
    extra nx (.face n) t = if n = t then wid (A t) 1 else 0 := by
  unfold extra wid
  have := h t
  by_cases hn : n = t
  · subst hn
    by_cases ha : A n = true
    · have : 1 < nx n := this.1.2 ha
      simp [ha, this]
    · have : ¬ 1 < nx n := fun h' => ha (this.1.1 h')
      simp [ha, this]
  · simp [hn]

theorem stored_of {A : Fin 3 → Bool} {nx : Fin 3 → ℕ} (hA : HasDim A nx) {ng : ℕ} {i j k : ℤ} (f : Fld)
    (h1 : lo (cfg ng ns) nx 2 - wid (A 2) ng + extra nx f 2 ≤ k) (h2 : k ≤ hi (cfg ng ns) nx 2 + wid (A 2) ng)
    (h3 : lo (cfg ng ns) nx 1 - wid (A 1) ng + extra nx f 1 ≤ j) (h4 : j ≤ hi (cfg ng ns) nx 1 + wid (A 1) ng)
    (h5 : lo (cfg ng ns) nx 0 - wid (A 0) ng + extra nx f 0 ≤ i) (h6 : i ≤ hi (cfg ng ns) nx 0 + wid (A 0) ng) :
    Stored (cfg ng ns) nx f (mkIdx i j k) := by
  have e : (cfg ng ns).ng = ng := rfl
  have key : ∀ t (y : ℤ), lo (cfg ng ns) nx t - wid (A t) ng + extra nx f t ≤ y → y ≤ hi (cfg ng ns) nx t + wid (A t) ng →
      extra nx f t ≤ y ∧ y < size (cfg ng ns) nx t := by
    intro t y a b
    rcases hA.cases (cfg ng ns) t with ⟨ha, x1, x2, x3, _⟩ | ⟨ha, x1, x2, x3, _⟩
    · rw [ha, wid, if_pos rfl] at a b; omega
    · rw [ha] at a b; simp only [wid, Bool.false_eq_true, if_false] at a b; omega
  intro t
  rcases three t with rfl | rfl | rfl
  · exact key 0 i h5 h6
  · exact key 1 j h3 h4
  · exact key 2 k h1 h2

theorem agreeA {A : Fin 3 → Bool} {ng : ℕ} {g : Grid R} {L : St R ns} (hA : HasDim A g.nx) (h : AgreeG ng g L) :
    AgreeA A (rngOf (cfg ng ns) g.nx) (toSt ns g) L := by
  have hv : ∀ (v : Var), v ∈ vars (cfg ng ns) → ∀ {k j i : ℤ}, lo (cfg ng ns) g.nx 2 - wid (A 2) ng ≤ k →
      k ≤ hi (cfg ng ns) g.nx 2 + wid (A 2) ng → lo (cfg ng ns) g.nx 1 - wid (A 1) ng ≤ j → j ≤ hi (cfg ng ns) g.nx 1 + wid (A 1) ng →
      lo (cfg ng ns) g.nx 0 - wid (A 0) ng ≤ i → i ≤ hi (cfg ng ns) g.nx 0 + wid (A 0) ng →
      g.U (mkIdx i j k) v = (ofSt g L).U (mkIdx i j k) v := by
    intro v hv k j i h1 h2 h3 h4 h5 h6
    exact h (.cell v) hv (mkIdx i j k) (stored_of hA _ (by rw [extra_cell]; omega) h2 (by rw [extra_cell]; omega) h4
      (by rw [extra_cell]; omega) h6)
  have hb : ∀ (n : Fin 3) {k j i : ℤ}, lo (cfg ng ns) g.nx 2 - wid (A 2) ng + (if n = 2 then wid (A 2) 1 else 0) ≤ k →
      k ≤ hi (cfg ng ns) g.nx 2 + wid (A 2) ng → lo (cfg ng ns) g.nx 1 - wid (A 1) ng + (if n = 1 then wid (A 1) 1 else 0) ≤ j →
      j ≤ hi (cfg ng ns) g.nx 1 + wid (A 1) ng → lo (cfg ng ns) g.nx 0 - wid (A 0) ng + (if n = 0 then wid (A 0) 1 else 0) ≤ i →
      i ≤ hi (cfg ng ns) g.nx 0 + wid (A 0) ng →
      g.Bi n (mkIdx i j k) = (ofSt g L).Bi n (mkIdx i j k) := by
    intro n k j i h1 h2 h3 h4 h5 h6
    exact h (.face n) rfl (mkIdx i j k) (stored_of hA _ (by rw [extra_dim hA]; exact h1) h2
      (by rw [extra_dim hA]; exact h3) h4 (by rw [extra_dim hA]; exact h5) h6)
  constructor
  · intro k j i h1 h2 h3 h4 h5 h6
    simp only [rngOf] at h1 h2 h3 h4 h5 h6
    have e := fun v hvv => hv v hvv (k := k) (j := j) (i := i) h1 h2 h3 h4 h5 h6
    simp only [toSt]
    refine Cons.ext (e .d (by simp [vars])) (e (.M 0) (by simp [vars])) (e (.M 1) (by simp [vars])) (e (.M 2) (by simp [vars]))
      (e .E (by simp [vars, cfg])) (e (.Bc 0) (by simp [vars, cfg])) (e (.Bc 1) (by simp [vars, cfg])) (e (.Bc 2) (by simp [vars, cfg])) ?_
    funext n
    have := e (.s n) (by simp [vars, cfg])
    simp only [ofSt, Cons.get, dif_pos n.isLt] at this
    exact this
  · intro k j i h1 h2 h3 h4 h5 h6
    exact hb 0 (by rw [if_neg (by decide), add_zero]; exact h1) h2 (by rw [if_neg (by decide), add_zero]; exact h3) h4 (by rw [if_pos rfl]; exact h5) h6
  · intro k j i h1 h2 h3 h4 h5 h6
    exact hb 1 (by rw [if_neg (by decide), add_zero]; exact h1) h2 (by rw [if_pos rfl]; exact h3) h4 (by rw [if_neg (by decide), add_zero]; exact h5) h6
  · intro k j i h1 h2 h3 h4 h5 h6
    exact hb 2 (by rw [if_pos rfl]; exact h1) h2 (by rw [if_neg (by decide), add_zero]; exact h3) h4 (by rw [if_neg (by decide), add_zero]; exact h5) h6

theorem active_of {A : Fin 3 → Bool} {ng : ℕ} {g : Grid R} {S L : St R ns} (hA : HasDim A g.nx)
    (h : ActEq A (rngOf (cfg ng ns) g.nx) S L) (f : Fld) (y : Idx) (hy : Active (cfg ng ns) g.nx f y) :
    f.val (ofSt g S) y = f.val (ofSt g L) y := by
  have a0 := hy 0; have a1 := hy 1; have a2 := hy 2
  cases f with
  | cell v =>
    simp only [extra_cell, add_zero] at a0 a1 a2
    have e1 := h.U (y 2) (y 1) (y 0) a2.1 a2.2 a1.1 a1.2 a0.1 a0.2
    simp only [Fld.val, ofSt, e1]
  | face n =>
    rw [extra_dim hA] at a0 a1 a2
    rcases three n with rfl | rfl | rfl
    · simp only [Fin.isValue, Fin.reduceEq, if_true, if_false, add_zero] at a0 a1 a2
      exact h.B1 (y 2) (y 1) (y 0) a2.1 a2.2 a1.1 a1.2 a0.1 a0.2
    · simp only [Fin.isValue, Fin.reduceEq, if_true, if_false, add_zero] at a0 a1 a2
      exact h.B2 (y 2) (y 1) (y 0) a2.1 a2.2 a1.1 a1.2 a0.1 a0.2
    · simp only [Fin.isValue, Fin.reduceEq, if_true, if_false, add_zero] at a0 a1 a2
      exact h.B3 (y 2) (y 1) (y 0) a2.1 a2.2 a1.1 a1.2 a0.1 a0.2

theorem lattice_of {A : Fin 3 → Bool} {I : Integ Q R Wk ns} {lat : Q → St R ns → St R ns}
    (hs : ∀ q L a b d, (lat q L).shift a b d = lat q (L.shift a b d))
    (h : ∀ q g S L J, RngOk A g → AgreeA A g S L → ActEq A g (I q g S J) (lat q L)) : Lattice A I lat where
  shift := hs
  active q ng J g L hng hA ha f _ y hy := by
    unfold advance
    exact active_of hA (h q _ _ _ J (rngOk hng hA) (agreeA hA ha)) f y hy

/-! ## Decomposition -/

theorem val_shift {ng : ℕ} (g : Grid R) (L : St R ns) {f : Fld} (hf : f.In (cfg ng ns)) (y o : Idx) :
    f.val (ofSt g (L.shift (o 2) (o 1) (o 0))) y = f.val (ofSt g L) (fun t => y t + o t) := Vl3.val_shift g L hf y o

theorem ofSt_toSt {ng : ℕ} (g g' : Grid R) {f : Fld} (hf : f.In (cfg ng ns)) (y : Idx) :
    f.val (ofSt g (toSt ns g')) y = f.val g' y := by
  cases f with
  | cell v =>
    cases v with
    | s n =>
      simp only [Fld.In, vars, cfg] at hf
      have hn : n < ns := by simpa using hf
      simp only [Fld.val, ofSt, toSt, Cons.get, dif_pos hn, mkIdx_eta]
    | M n => rcases three n with rfl | rfl | rfl <;> simp only [Fld.val, ofSt, toSt, Cons.get, mkIdx_eta] <;> rfl
    | Bc n => rcases three n with rfl | rfl | rfl <;> simp only [Fld.val, ofSt, toSt, Cons.get, mkIdx_eta] <;> rfl
    | _ => simp only [Fld.val, ofSt, toSt, Cons.get, mkIdx_eta]
  | face n =>
    rcases three n with rfl | rfl | rfl
    · show g'.Bi 0 (mkIdx (y 0) (y 1) (y 2)) = g'.Bi 0 y
      rw [mkIdx_eta]
    · show g'.Bi 1 (mkIdx (y 0) (y 1) (y 2)) = g'.Bi 1 y
      rw [mkIdx_eta]
    · show g'.Bi 2 (mkIdx (y 0) (y 1) (y 2)) = g'.Bi 2 y
      rw [mkIdx_eta]

/-- On the active zones and faces the integrator gives a Grid cut out of a larger one the values of the larger one. -/
theorem advance_eq {A : Fin 3 → Bool} {I : Integ Q R Wk ns} {lat : Q → St R ns → St R ns} (hI : Lattice A I lat) (q : Q)
    {ng : ℕ} (hng : 4 ≤ ng) (J' J : Wk) {g' G : Grid R} {o : Idx} (hA' : HasDim A g'.nx) (hA : HasDim A G.nx)
    (h : ∀ f : Fld, f.In (cfg ng ns) → ∀ y, Stored (cfg ng ns) g'.nx f y → f.val g' y = f.val G (fun t => y t + o t))
    {f : Fld} (hf : f.In (cfg ng ns)) {y : Idx} (hy' : Active (cfg ng ns) g'.nx f y)
    (hy : Active (cfg ng ns) G.nx f (fun t => y t + o t)) :
    f.val (advance I q ng J' g') y = f.val (advance I q ng J G) (fun t => y t + o t) := by
  have e1 := hI.active q ng J' g' ((toSt ns G).shift (o 2) (o 1) (o 0)) hng hA' (fun f hf y hy => by
    rw [h f hf y hy, val_shift _ _ hf, ofSt_toSt _ _ hf]) f hf y hy'
  have e2 := hI.active q ng J G (toSt ns G) hng hA (fun f hf y hy => (ofSt_toSt _ _ hf _).symm) f hf _ hy
  rw [e1, e2, ← hI.shift, val_shift _ _ hf]
  exact ofSt_nx _ _ _ hf _

section Run
variable [Neg R] [Zero R]

theorem run_nx {I : Integ Q R Wk ns} {q : ℕ → Q} {ng sz : ℕ} {D : Dom} (hD : DomOk (cfg ng ns) sz D)
    {o : ℕ → Fin 3 → Coord → Bool} {J : ℕ → Coord → Wk} {s : ℕ → Coord → Grid R}
    (hr : IsRun I q ng sz D o J s) (h0 : ∀ C, D.Has C → (s 0 C).nx = D.gnx C) :
    ∀ n C, D.Has C → (s n C).nx = D.gnx C := by
  intro n
  induction n with
  | zero => exact h0
  | succ n ih =>
    intro C hC
    obtain ⟨σ, _, e3, hσ⟩ := bvals_all hD (o n) (fun C => advance I (q n) ng (J n C) (s n C)) ih
    have h := hr n C hC
    rw [e3 C hC] at h
    injection h with h
    rw [← h]
    exact (hσ 2 C hC).2.1

/-- No Grid reads outside its arrays or waits forever in `bvals_mhd`, so there is a run from every initial state. -/
theorem run_exists (I : Integ Q R Wk ns) (q : ℕ → Q) {ng : ℕ} {Ds : List Dom} {D : Dom} (hDs : D ∈ Ds)
    (hD : Regular (cfg ng ns) D) (o : ℕ → Fin 3 → Coord → Bool) (J : ℕ → Coord → Wk) (s0 : Coord → Grid R)
    (h0 : ∀ C, D.Has C → (s0 C).nx = D.gnx C) :
    ∃ s, s 0 = s0 ∧ IsRun I q ng (bufSize (cfg ng ns) Ds) D o J s := by
  have step : ∀ n (s : Coord → Grid R), (∀ C, D.Has C → (s C).nx = D.gnx C) → ∃ s' : Coord → Grid R,
      (∀ C, D.Has C → bvals (cfg ng ns) (bufSize (cfg ng ns) Ds) D (o n) (fun C => advance I (q n) ng (J n C) (s C)) C = .ok (s' C)) ∧
      (∀ C, D.Has C → (s' C).nx = D.gnx C) := by
    intro n s hs
    obtain ⟨σ, _, e3, hσ⟩ := bvals_all (hD.ok hDs) (o n) (fun C => advance I (q n) ng (J n C) (s C)) hs
    exact ⟨σ 3, e3, fun C hC => (hσ 2 C hC).2.1⟩
  let T := {s : Coord → Grid R // ∀ C, D.Has C → (s C).nx = D.gnx C}
  let nxt : ℕ → T → T := fun n s => ⟨Classical.choose (step n s.1 s.2), (Classical.choose_spec (step n s.1 s.2)).2⟩
  let r : ℕ → T := fun n => Nat.rec ⟨s0, h0⟩ nxt n
  exact ⟨fun n => (r n).1, rfl, fun n => (Classical.choose_spec (step n (r n).1 (r n).2)).1⟩

theorem hasDim_tot {c : Cfg} {sz : ℕ} {D : Dom} (hok : DomOk c sz D) {A : Fin 3 → Bool} {C : Coord} (hC : D.Has C)
    (h : HasDim A (D.gnx C)) : HasDim A (tot D) := by
  intro t
  have h1 := gnx_tot hok hC t
  have h2 := h t
  refine ⟨h1.1.symm.trans h2.1, fun ha => ?_⟩
  have : ¬ 1 < D.gnx C t := by rw [h2.1, ha]; simp
  rw [(h1.2 this).2.2]
  exact h2.2 ha

/-- Let the Grids of a Domain hold, ghost zones included, the values of the undivided Domain.  After any
number of cycles, in whatever order messages arrive and whatever the work arrays contained, every zone and face of
every Grid holds the value of the undivided Domain. -/
theorem decomposed_run {A : Fin 3 → Bool} {I : Integ Q R Wk ns} {lat : Q → St R ns → St R ns} (hI : Lattice A I lat)
    (q : ℕ → Q) {ng : ℕ} (hng : 4 ≤ ng) (Ds : List Dom)
    (D : Dom) (hDs : D ∈ Ds) (hD : Regular (cfg ng ns) D) (hA : ∀ C, D.Has C → HasDim A (D.gnx C))
    (o o' : ℕ → Fin 3 → Coord → Bool) (J : ℕ → Coord → Wk) (J' : ℕ → Wk) (s : ℕ → Coord → Grid R) (G : ℕ → Grid R)
    (hs : IsRun I q ng (bufSize (cfg ng ns) Ds) D o J s) (hG : IsRun I q ng 0 (single D) o' (fun n _ => J' n) (fun n _ => G n))
    (hsn : ∀ C, D.Has C → (s 0 C).nx = D.gnx C) (hGn : (G 0).nx = tot D)
    (h0 : ∀ C, D.Has C → ∀ f : Fld, f.In (cfg ng ns) → ∀ y, Stored (cfg ng ns) (D.gnx C) f y →
      f.val (s 0 C) y = f.val (G 0) (gl D C y)) :
    ∀ n C, D.Has C → ∀ f : Fld, f.In (cfg ng ns) → ∀ y, Stored (cfg ng ns) (D.gnx C) f y →
      f.val (s n C) y = f.val (G n) (gl D C y) := by
  intro n
  by_cases hne : ∃ C, D.Has C
  swap
  · intro C hC; exact absurd ⟨C, hC⟩ hne
  have hok := hD.ok hDs
  have hsing := single_domOk hDs hD hne
  have nxs := run_nx hok hs hsn
  have nxG := run_nx hsing hG (fun C hC => by
    have : C = fun _ => 0 := by funext t; have := hC t; simp only [single] at this; omega
    subst this; exact hGn)
  induction n with
  | zero => exact h0
  | succ n ih =>
    have eG : (G n).nx = tot D := nxG n (fun _ => 0) (has_single D)
    obtain ⟨s', G', e1, e2, hE⟩ := decomposed_eq_single (cfg ng ns) Ds D hDs hD hne (o n) (o' n)
      (fun C => advance I (q n) ng (J n C) (s n C)) (advance I (q n) ng (J' n) (G n))
      (fun C hC => nxs n C hC) eG (by
        intro C hC f hf y hy
        have hy2 : Active (cfg ng ns) (tot D) f (gl D C y) := active_iff.1 (inR_gl hok hC (active_iff.2 hy))
        have enx := nxs n C hC
        refine advance_eq hI (q n) hng _ _ (o := fun t => (disp D t (C t) : ℤ)) ?_ ?_ ?_ hf ?_ ?_
        · rw [enx]; exact hA C hC
        · rw [eG]; exact hasDim_tot hok hC (hA C hC)
        · rw [enx]; exact ih C hC
        · rw [enx]; exact hy
        · rw [eG]; exact hy2)
    intro C hC f hf y hy
    have r1 := hs n C hC
    rw [e1 C hC] at r1
    have r2 := hG n (fun _ => 0) (has_single D)
    rw [e2] at r2
    injection r1 with r1
    injection r2 with r2
    dsimp only at r2
    rw [← r1, ← r2]
    exact hE C hC f hf y hy

/-- The run on a single Grid exists. -/
theorem run1_exists (I : Integ Q R Wk ns) (q : ℕ → Q) {ng : ℕ} {D : Dom}
    (hD : DomOk (cfg ng ns) 0 (single D)) (o : ℕ → Fin 3 → Coord → Bool) (J : ℕ → Wk) (G0 : Grid R)
    (h0 : G0.nx = tot D) :
    ∃ G : ℕ → Grid R, G 0 = G0 ∧ IsRun I q ng 0 (single D) o (fun n _ => J n) (fun n _ => G n) := by
  have hC0 : ∀ C, (single D).Has C → C = fun _ => 0 := by
    intro C hC; funext t; have := hC t; simp only [single] at this; omega
  have step : ∀ n (g : Grid R), g.nx = tot D → ∃ g' : Grid R,
      bvals (cfg ng ns) 0 (single D) (o n) (fun _ => advance I (q n) ng (J n) g) (fun _ => 0) = .ok g' ∧ g'.nx = tot D := by
    intro n g hg
    obtain ⟨σ, _, e3, hσ⟩ := bvals_all hD (o n) (fun _ => advance I (q n) ng (J n) g) (by
      intro C hC; rw [hC0 C hC]; exact hg)
    exact ⟨σ 3 (fun _ => 0), e3 _ (has_single D), (hσ 2 _ (has_single D)).2.1⟩
  let T := {g : Grid R // g.nx = tot D}
  let nxt : ℕ → T → T := fun n s => ⟨Classical.choose (step n s.1 s.2), (Classical.choose_spec (step n s.1 s.2)).2⟩
  let r : ℕ → T := fun n => Nat.rec ⟨G0, h0⟩ nxt n
  refine ⟨fun n => (r n).1, rfl, fun n C hC => ?_⟩
  rw [hC0 C hC]
  exact (Classical.choose_spec (step n (r n).1 (r n).2)).1

/-- The run on the undivided Domain that accompanies a run on the Grids. -/
theorem companion {A : Fin 3 → Bool} {I : Integ Q R Wk ns} {lat : Q → St R ns → St R ns} (hI : Lattice A I lat)
    (q : ℕ → Q) {ng : ℕ} (hng : 4 ≤ ng) (Ds : List Dom)
    (D : Dom) (hDs : D ∈ Ds) (hD : Regular (cfg ng ns) D) (hne : ∃ C, D.Has C) (hA : ∀ C, D.Has C → HasDim A (D.gnx C))
    (o : ℕ → Fin 3 → Coord → Bool) (J : ℕ → Coord → Wk) (s : ℕ → Coord → Grid R)
    (hs : IsRun I q ng (bufSize (cfg ng ns) Ds) D o J s) (Gi : Grid R) (hst : Start (cfg ng ns) (bufSize (cfg ng ns) Ds) D Gi (s 0)) :
    ∃ (G : ℕ → Grid R) (o0 : Fin 3 → Coord → Bool) (o' : ℕ → Fin 3 → Coord → Bool) (J' : ℕ → Wk),
      bvals (cfg ng ns) 0 (single D) o0 (fun _ => Gi) (fun _ => 0) = .ok (G 0) ∧
      IsRun I q ng 0 (single D) o' (fun n _ => J' n) (fun n _ => G n) ∧
      (∀ n, (G n).nx = tot D) ∧ (∀ n C, D.Has C → (s n C).nx = D.gnx C) ∧
      ∀ n C, D.Has C → ∀ f : Fld, f.In (cfg ng ns) → ∀ y, Stored (cfg ng ns) (D.gnx C) f y →
        f.val (s n C) y = f.val (G n) (gl D C y) := by
  obtain ⟨hGn, si, oi, hnx, hact, hb⟩ := hst
  have hsing := single_domOk hDs hD hne
  have hok := hD.ok hDs
  obtain ⟨s', G', e1, e2, hE⟩ := decomposed_eq_single (cfg ng ns) Ds D hDs hD hne oi oi si Gi hnx hGn hact
  have es : ∀ C, D.Has C → s' C = s 0 C := by
    intro C hC
    have := hb C hC
    rw [e1 C hC] at this
    injection this
  have bnx : ∀ {sz : ℕ} {D : Dom} (hD : DomOk (cfg ng ns) sz D) (o : Fin 3 → Coord → Bool) {s : Coord → Grid R}
      (hnx : ∀ C, D.Has C → (s C).nx = D.gnx C) {C : Coord} (hC : D.Has C) {g : Grid R}
      (h : bvals (cfg ng ns) sz D o s C = .ok g), g.nx = D.gnx C := by
    intro sz D hD o s hnx C hC g h
    obtain ⟨σ, _, e3, hσ⟩ := bvals_all hD o s hnx
    rw [e3 C hC] at h
    injection h with h
    rw [← h]
    exact (hσ 2 C hC).2.1
  have hG' : G'.nx = tot D := bnx (s := fun _ => Gi) hsing oi (by
    intro C hC
    have : C = fun _ => 0 := by funext t; have := hC t; simp only [single] at this; omega
    subst this; exact hGn) (has_single D) e2
  have hs0 : ∀ C, D.Has C → (s 0 C).nx = D.gnx C := fun C hC => bnx hok oi hnx hC (hb C hC)
  obtain ⟨G, eG, hG⟩ := run1_exists I q hsing o (fun n => J n (fun _ => 0)) G' hG'
  refine ⟨G, oi, o, fun n => J n (fun _ => 0), by rw [eG]; exact e2, hG, ?_, run_nx hok hs hs0, ?_⟩
  · intro n
    exact run_nx hsing hG (fun C hC => by
      have : C = fun _ => 0 := by funext t; have := hC t; simp only [single] at this; omega
      subst this; rw [eG]; exact hG') n (fun _ => 0) (has_single D)
  · refine decomposed_run hI q hng Ds D hDs hD hA o o J _ s G hs hG hs0 (by rw [eG]; exact hG') ?_
    intro C hC f hf y hy
    rw [← es C hC, eG]
    exact hE C hC f hf y hy

end Run
end Athena.Gen
