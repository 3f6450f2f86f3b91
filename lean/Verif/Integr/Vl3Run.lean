import Verif.Integr.Vl3Lemmas
import Verif.Bvals.Props

/-!
# Runs: the integrator on every Grid of a Domain, then the boundary values

src/main.c:498-560 for one Domain: `Integrate` on the Grids, then `bvals_mhd`.  The Grids of the model
of bvals_mhd.c are used; arithmetic is again that of any type.
-/

namespace Athena.Vl3
open Athena.Bvals

variable {R W : Type} {ns : ℕ}

/-- A member of `ConsS` by name; `old` for a scalar that does not exist. -/
def Cons.get (u : Cons R ns) (old : R) : Var → R
  | .d => u.d
  | .M n => if n = 0 then u.M1 else if n = 1 then u.M2 else u.M3
  | .E => u.E
  | .Bc n => if n = 0 then u.B1c else if n = 1 then u.B2c else u.B3c
  | .s n => if h : n < ns then u.s ⟨n, h⟩ else old

/-- The Grid of the boundary functions as seen by the integrator. -/
def toSt (ns : ℕ) (g : Grid R) : St R ns where
  U := fun k j i =>
    let u := g.U (mkIdx i j k)
    ⟨u .d, u (.M 0), u (.M 1), u (.M 2), u .E, u (.Bc 0), u (.Bc 1), u (.Bc 2), fun n => u (.s n)⟩
  B1i := fun k j i => g.Bi 0 (mkIdx i j k)
  B2i := fun k j i => g.Bi 1 (mkIdx i j k)
  B3i := fun k j i => g.Bi 2 (mkIdx i j k)

/-- The Grid with the contents left by the integrator. -/
def ofSt (g : Grid R) (S : St R ns) : Grid R where
  nx := g.nx
  U := fun y v => (S.U (y 2) (y 1) (y 0)).get (g.U y v) v
  Bi := fun n y => (if n = 0 then S.B1i else if n = 1 then S.B2i else S.B3i) (y 2) (y 1) (y 0)

/-- MHD, adiabatic, `ns` scalars, `ng` ghost zones. -/
def cfg (ng ns : ℕ) : Cfg := ⟨ng, true, false, ns⟩

/-- `is`, `ie`, … of a Grid, src/init_grid.c. -/
def rngOf (c : Cfg) (nx : Fin 3 → ℕ) : Rng :=
  ⟨lo c nx 0, hi c nx 0, lo c nx 1, hi c nx 1, lo c nx 2, hi c nx 2, c.ng⟩

/-- `integrate_3d_vl` on a Grid. -/
def advance [Num R] (M : Method R W ns) (q : Coef R) (ng : ℕ) (J : Work R W ns) (g : Grid R) : Grid R :=
  ofSt g (integrate M q (rngOf (cfg ng ns) g.nx) (toSt ns g) J)

/-- A run on the Domain `D`: in cycle `n` every Grid is integrated with the ratios `q n`, starting from some
contents `J n` of the work arrays, then `bvals_mhd` is called, with messages completing in the order `o n`. -/
def IsRun [Num R] [Zero R] (M : Method R W ns) (q : ℕ → Coef R) (ng sz : ℕ) (D : Dom) (o : ℕ → Fin 3 → Coord → Bool)
    (J : ℕ → Coord → Work R W ns) (s : ℕ → Coord → Grid R) : Prop :=
  ∀ n C, D.Has C → bvals (cfg ng ns) sz D (o n) (fun C => advance M (q n) ng (J n C) (s n C)) C = .ok (s (n+1) C)

/-! ## Lemmas -/

theorem mkIdx_eta (y : Idx) : mkIdx (y 0) (y 1) (y 2) = y := by
  funext t
  match t with
  | 0 => rfl
  | 1 => rfl
  | 2 => rfl

theorem mkIdx_add (i j k : ℤ) (o : Fin 3 → ℤ) : (fun t => mkIdx i j k t + o t) = mkIdx (i + o 0) (j + o 1) (k + o 2) := by
  rw [← mkIdx_eta (fun t => mkIdx i j k t + o t)]; rfl

theorem rngOf_ok {ng ns : ℕ} {nx : Fin 3 → ℕ} (hng : 4 ≤ ng) (hnx : ∀ t, 1 < nx t) : (rngOf (cfg ng ns) nx).Ok := by
  have h0 := hnx 0; have h1 := hnx 1; have h2 := hnx 2
  constructor
  · simp only [rngOf, lo, hi, if_pos h0]; omega
  · simp only [rngOf, lo, hi, if_pos h1]; omega
  · simp only [rngOf, lo, hi, if_pos h2]; omega
  · simp only [rngOf, cfg]; omega

theorem stored_mk {ng ns : ℕ} {nx : Fin 3 → ℕ} (hnx : ∀ t, 1 < nx t) {i j k : ℤ} (f : Fld)
    (h1 : lo (cfg ng ns) nx 2 - ng + extra nx f 2 ≤ k) (h2 : k ≤ hi (cfg ng ns) nx 2 + ng)
    (h3 : lo (cfg ng ns) nx 1 - ng + extra nx f 1 ≤ j) (h4 : j ≤ hi (cfg ng ns) nx 1 + ng)
    (h5 : lo (cfg ng ns) nx 0 - ng + extra nx f 0 ≤ i) (h6 : i ≤ hi (cfg ng ns) nx 0 + ng) :
    Stored (cfg ng ns) nx f (mkIdx i j k) := by
  have e : ∀ t, lo (cfg ng ns) nx t = ng ∧ hi (cfg ng ns) nx t = nx t + ng - 1 ∧
      size (cfg ng ns) nx t = nx t + 2 * ng := by
    intro t; simp only [lo, hi, size, if_pos (hnx t), cfg]; exact ⟨trivial, trivial, trivial⟩
  have e0 := e 0; have e1 := e 1; have e2 := e 2
  intro t
  match t with
  | 0 => simp only [mkIdx, if_true]; omega
  | 1 => show _ ≤ j ∧ j < _; omega
  | 2 => show _ ≤ k ∧ k < _; omega

theorem extra_cell (nx : Fin 3 → ℕ) (v : Var) (t : Fin 3) : extra nx (.cell v) t = 0 := by simp [extra]
theorem extra_face (nx : Fin 3 → ℕ) (n t : Fin 3) (h : 1 < nx t) : extra nx (.face n) t = if n = t then 1 else 0 := by
  simp [extra, h]

theorem agree_of_stored {ng : ℕ} {g' G : Grid R} {o : Fin 3 → ℤ} (hnx : ∀ t, 1 < g'.nx t)
    (h : ∀ f : Fld, f.In (cfg ng ns) → ∀ y, Stored (cfg ng ns) g'.nx f y → f.val g' y = f.val G (fun t => y t + o t)) :
    Agree (rngOf (cfg ng ns) g'.nx) (toSt ns g') ((toSt ns G).shift (o 2) (o 1) (o 0)) := by
  have hv : ∀ (v : Var), v ∈ vars (cfg ng ns) → ∀ {k j i : ℤ}, lo (cfg ng ns) g'.nx 2 - ng ≤ k →
      k ≤ hi (cfg ng ns) g'.nx 2 + ng → lo (cfg ng ns) g'.nx 1 - ng ≤ j → j ≤ hi (cfg ng ns) g'.nx 1 + ng →
      lo (cfg ng ns) g'.nx 0 - ng ≤ i → i ≤ hi (cfg ng ns) g'.nx 0 + ng →
      g'.U (mkIdx i j k) v = G.U (mkIdx (i + o 0) (j + o 1) (k + o 2)) v := by
    intro v hv k j i h1 h2 h3 h4 h5 h6
    have := h (.cell v) hv (mkIdx i j k) (stored_mk hnx _ (by rw [extra_cell]; omega) h2 (by rw [extra_cell]; omega) h4
      (by rw [extra_cell]; omega) h6)
    rw [mkIdx_add] at this
    exact this
  have hb : ∀ (n : Fin 3) {k j i : ℤ}, lo (cfg ng ns) g'.nx 2 - ng + (if n = 2 then 1 else 0) ≤ k →
      k ≤ hi (cfg ng ns) g'.nx 2 + ng → lo (cfg ng ns) g'.nx 1 - ng + (if n = 1 then 1 else 0) ≤ j →
      j ≤ hi (cfg ng ns) g'.nx 1 + ng → lo (cfg ng ns) g'.nx 0 - ng + (if n = 0 then 1 else 0) ≤ i →
      i ≤ hi (cfg ng ns) g'.nx 0 + ng →
      g'.Bi n (mkIdx i j k) = G.Bi n (mkIdx (i + o 0) (j + o 1) (k + o 2)) := by
    intro n k j i h1 h2 h3 h4 h5 h6
    have := h (.face n) rfl (mkIdx i j k) (stored_mk hnx _ (by rw [extra_face _ _ _ (hnx 2)]; exact h1) h2
      (by rw [extra_face _ _ _ (hnx 1)]; exact h3) h4 (by rw [extra_face _ _ _ (hnx 0)]; exact h5) h6)
    rw [mkIdx_add] at this
    exact this
  constructor
  · intro k j i h1 h2 h3 h4 h5 h6
    simp only [rngOf, cfg] at h1 h2 h3 h4 h5 h6
    have e := fun v hvv => hv v hvv (k := k) (j := j) (i := i) h1 h2 h3 h4 h5 h6
    simp only [toSt, St.shift]
    rw [Cons.mk.injEq]
    refine ⟨e _ (by simp [vars]), e _ (by simp [vars]), e _ (by simp [vars]), e _ (by simp [vars]), e _ (by simp [vars, cfg]),
      e _ (by simp [vars, cfg]), e _ (by simp [vars, cfg]), e _ (by simp [vars, cfg]), ?_⟩
    funext n
    exact e _ (by simp [vars, cfg])
  · intro k j i h1 h2 h3 h4 h5 h6
    exact hb 0 (by rw [if_neg (by decide), add_zero]; exact h1) h2 (by rw [if_neg (by decide), add_zero]; exact h3) h4 (by rw [if_pos rfl]; exact h5) h6
  · intro k j i h1 h2 h3 h4 h5 h6
    exact hb 1 (by rw [if_neg (by decide), add_zero]; exact h1) h2 (by rw [if_pos rfl]; exact h3) h4 (by rw [if_neg (by decide), add_zero]; exact h5) h6
  · intro k j i h1 h2 h3 h4 h5 h6
    exact hb 2 (by rw [if_pos rfl]; exact h1) h2 (by rw [if_neg (by decide), add_zero]; exact h3) h4 (by rw [if_neg (by decide), add_zero]; exact h5) h6

theorem three (d : Fin 3) : d = 0 ∨ d = 1 ∨ d = 2 := by revert d; decide

/-- On the active zones and faces the integrator gives a Grid cut out of a larger one the values of the larger one. -/
theorem advance_eq [Num R] {M : Method R W ns} (hM : M.Local) (q : Coef R) {ng : ℕ} (hng : 4 ≤ ng) (J' J : Work R W ns)
    {g' G : Grid R} {o : Fin 3 → ℤ} (hnx' : ∀ t, 1 < g'.nx t) (hnx : ∀ t, 1 < G.nx t)
    (h : ∀ f : Fld, f.In (cfg ng ns) → ∀ y, Stored (cfg ng ns) g'.nx f y → f.val g' y = f.val G (fun t => y t + o t))
    {f : Fld} (hf : f.In (cfg ng ns)) {y : Idx} (hy' : Active (cfg ng ns) g'.nx f y)
    (hy : Active (cfg ng ns) G.nx f (fun t => y t + o t)) :
    f.val (advance M q ng J' g') y = f.val (advance M q ng J G) (fun t => y t + o t) := by
  have hok' := rngOf_ok (ns := ns) hng hnx'
  have hok := rngOf_ok (ns := ns) hng hnx
  have ha' := agree_of_stored hnx' h
  have ha : Agree (rngOf (cfg ng ns) G.nx) (toSt ns G) (toSt ns G) :=
    ⟨fun _ _ _ _ _ _ _ _ _ => rfl, fun _ _ _ _ _ _ _ _ _ => rfl, fun _ _ _ _ _ _ _ _ _ => rfl, fun _ _ _ _ _ _ _ _ _ => rfl⟩
  have a0 := hy' 0; have a1 := hy' 1; have a2 := hy' 2
  have b0 := hy 0; have b1 := hy 1; have b2 := hy 2
  cases f with
  | cell v =>
    simp only [extra_cell, add_zero] at a0 a1 a2 b0 b1 b2
    have e1 := bU (J := J') (c := q) hM hok' ha' (k := y 2) (j := y 1) (i := y 0) a2.1 a2.2 a1.1 a1.2 a0.1 a0.2
    have e2 := bU (J := J) (c := q) hM hok ha (k := y 2 + o 2) (j := y 1 + o 1) (i := y 0 + o 0) b2.1 b2.2 b1.1 b1.2 b0.1 b0.2
    rw [tU, ← e2] at e1
    simp only [Fld.val, advance, ofSt, e1]
    cases v with
    | s n =>
      simp only [Fld.In, vars, cfg] at hf
      have hn : n < ns := by simpa using hf
      simp only [Cons.get, dif_pos hn]
    | _ => rfl
  | face n =>
    rw [extra_face _ _ _ (hnx' 0)] at a0
    rw [extra_face _ _ _ (hnx' 1)] at a1
    rw [extra_face _ _ _ (hnx' 2)] at a2
    rw [extra_face _ _ _ (hnx 0)] at b0
    rw [extra_face _ _ _ (hnx 1)] at b1
    rw [extra_face _ _ _ (hnx 2)] at b2
    rcases three n with rfl | rfl | rfl
    · simp only [Fin.isValue, Fin.reduceEq, if_true, if_false, add_zero] at a0 a1 a2 b0 b1 b2
      have e1 := bB1 (J := J') (c := q) hM hok' ha' (k := y 2) (j := y 1) (i := y 0) a2.1 a2.2 a1.1 a1.2 a0.1 a0.2
      have e2 := bB1 (J := J) (c := q) hM hok ha (k := y 2 + o 2) (j := y 1 + o 1) (i := y 0 + o 0) b2.1 b2.2 b1.1 b1.2 b0.1 b0.2
      rw [tB1, ← e2] at e1
      exact e1
    · simp only [Fin.isValue, Fin.reduceEq, if_true, if_false, add_zero] at a0 a1 a2 b0 b1 b2
      have e1 := bB2 (J := J') (c := q) hM hok' ha' (k := y 2) (j := y 1) (i := y 0) a2.1 a2.2 a1.1 a1.2 a0.1 a0.2
      have e2 := bB2 (J := J) (c := q) hM hok ha (k := y 2 + o 2) (j := y 1 + o 1) (i := y 0 + o 0) b2.1 b2.2 b1.1 b1.2 b0.1 b0.2
      rw [tB2, ← e2] at e1
      exact e1
    · simp only [Fin.isValue, Fin.reduceEq, if_true, if_false, add_zero] at a0 a1 a2 b0 b1 b2
      have e1 := bB3 (J := J') (c := q) hM hok' ha' (k := y 2) (j := y 1) (i := y 0) a2.1 a2.2 a1.1 a1.2 a0.1 a0.2
      have e2 := bB3 (J := J) (c := q) hM hok ha (k := y 2 + o 2) (j := y 1 + o 1) (i := y 0 + o 0) b2.1 b2.2 b1.1 b1.2 b0.1 b0.2
      rw [tB3, ← e2] at e1
      exact e1

end Athena.Vl3
