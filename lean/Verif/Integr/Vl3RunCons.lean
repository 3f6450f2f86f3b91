import Verif.Integr.Vl3Cons

/-!
# C32, C33 over any number of cycles, on any decomposition
-/

namespace Athena.Vl3
open Athena.Bvals

variable {W : Type} {ns : ℕ}

/-! ## Specification -/

/-- Index of the first active zone plus `a`, `b`, `c`. -/
def zone (c : Cfg) (nx : Fin 3 → ℕ) (a b d : ℕ) : Idx := mkIdx (lo c nx 0 + a) (lo c nx 1 + b) (lo c nx 2 + d)

/-- The conserved variables as members of the zone structure. -/
def Conserved (ns : ℕ) : Var → Prop
  | .d => True
  | .M _ => True
  | .E => True
  | .Bc _ => False
  | .s n => n < ns

/-- Sum of a variable over the active zones of a Grid. -/
def total (c : Cfg) (g : Grid ℝ) (v : Var) : ℝ :=
  ∑ d ∈ Finset.range (g.nx 2), ∑ b ∈ Finset.range (g.nx 1), ∑ a ∈ Finset.range (g.nx 0), g.U (zone c g.nx a b d) v

/-- Sum over the active zones of all Grids of the Domain. -/
def domTotal (c : Cfg) (D : Dom) (s : Coord → Grid ℝ) (v : Var) : ℝ :=
  ∑ n ∈ Finset.range (D.NG 2), ∑ m ∈ Finset.range (D.NG 1), ∑ l ∈ Finset.range (D.NG 0),
    total c (s (fun t => if t = 0 then l else if t = 1 then m else n)) v

/-- `y` one further in direction `t`. -/
def next (y : Idx) (t : Fin 3) : Idx := fun t' => if t' = t then y t' + 1 else y t'

/-- Divergence of the interface fields of the zone `y`. -/
noncomputable def gdivB (dx : Fin 3 → ℝ) (g : Grid ℝ) (y : Idx) : ℝ :=
  (g.Bi 0 (next y 0) - g.Bi 0 y) / dx 0 + (g.Bi 1 (next y 1) - g.Bi 1 y) / dx 1 + (g.Bi 2 (next y 2) - g.Bi 2 y) / dx 2

/-- In a periodic Domain the first and the last face in each direction are the same face. -/
def Closed {V : Type} (c : Cfg) (G : Grid V) : Prop :=
  ∀ t y, Active c G.nx (.face t) y → y t = hi c G.nx t + 1 →
    G.Bi t y = G.Bi t (fun t' => if t' = t then lo c G.nx t else y t')

/-! ## Periodic lattices -/

def Periodic {R : Type} (N : Fin 3 → ℕ) (L : St R ns) : Prop :=
  ∀ m : Fin 3 → ℤ, L.shift (m 2 * N 2) (m 1 * N 1) (m 0 * N 0) = L

/-- One step on the lattice. -/
def lat {R : Type} [Num R] (M : Method R W ns) (c : Coef R) (L : St R ns) : St R ns :=
  ⟨jU M c L, jB1 M c L, jB2 M c L, jB3 M c L⟩

theorem lat_shift {R : Type} [Num R] (M : Method R W ns) (c : Coef R) (L : St R ns) (a b d : ℤ) :
    (lat M c L).shift a b d = lat M c (L.shift a b d) := by
  simp only [lat, St.shift]
  rw [St.mk.injEq]
  refine ⟨?_, ?_, ?_, ?_⟩ <;> funext k j i
  · exact (tU M c L a b d k j i).symm
  · exact (tB1 M c L a b d k j i).symm
  · exact (tB2 M c L a b d k j i).symm
  · exact (tB3 M c L a b d k j i).symm

theorem Periodic.lat {R : Type} [Num R] {N : Fin 3 → ℕ} {L : St R ns} (h : Periodic N L) (M : Method R W ns) (c : Coef R) :
    Periodic N (Vl3.lat M c L) := fun m => by rw [lat_shift, h m]

theorem lat_conserves {N : Fin 3 → ℕ} {L : St ℝ ns} (h : Periodic N L) (M : Method ℝ W ns) (c : Coef ℝ) (is js ks : ℤ)
    (v : CVar ns) :
    zsum (N 0) (N 1) (N 2) is js ks (fun k j i => v.of ((lat M c L).U k j i)) =
      zsum (N 0) (N 1) (N 2) is js ks (fun k j i => v.of (L.U k j i)) := by
  have e : (fun k j i => v.of ((lat M c L).U k j i)) = fun k j i =>
      v.of (L.U k j i) - c.dtodx1 * (v.flux1 (jFlux1 M c L k j (i+1)) - v.flux1 (jFlux1 M c L k j i))
        - c.dtodx2 * (v.flux2 (jFlux2 M c L k (j+1) i) - v.flux2 (jFlux2 M c L k j i))
        - c.dtodx3 * (v.flux3 (jFlux3 M c L (k+1) j i) - v.flux3 (jFlux3 M c L k j i)) := by
    funext k j i
    exact cv_upd v _ _ _ _ _ _ _ _ _ _ _ _ _ _ _ _
  rw [e, zsum_flux (N 0) (N 1) (N 2) is js ks (fun k j i => v.of (L.U k j i)) (fun k j i => v.flux1 (jFlux1 M c L k j i))
    (fun k j i => v.flux2 (jFlux2 M c L k j i)) (fun k j i => v.flux3 (jFlux3 M c L k j i))]
  have p1 : ∀ k j i, jFlux1 M c L k j (i + N 0) = jFlux1 M c L k j i := by
    intro k j i
    have := tFlux1 M c L 0 0 (N 0) k j i
    have hp := h (fun t => if t = 0 then 1 else 0)
    simp only [Fin.isValue, Fin.reduceEq, if_true, if_false, zero_mul, one_mul] at hp
    rw [hp] at this
    rw [this, add_zero, add_zero]
  have p2 : ∀ k j i, jFlux2 M c L k (j + N 1) i = jFlux2 M c L k j i := by
    intro k j i
    have := tFlux2 M c L 0 (N 1) 0 k j i
    have hp := h (fun t => if t = 1 then 1 else 0)
    simp only [Fin.isValue, Fin.reduceEq, if_true, if_false, zero_mul, one_mul] at hp
    rw [hp] at this
    rw [this, add_zero, add_zero]
  have p3 : ∀ k j i, jFlux3 M c L (k + N 2) j i = jFlux3 M c L k j i := by
    intro k j i
    have := tFlux3 M c L (N 2) 0 0 k j i
    have hp := h (fun t => if t = 2 then 1 else 0)
    simp only [Fin.isValue, Fin.reduceEq, if_true, if_false, zero_mul, one_mul] at hp
    rw [hp] at this
    rw [this, add_zero, add_zero]
  simp only [fsum1, fsum2, fsum3, p1, p2, p3, sub_self, mul_zero, sub_zero]

/-! ## From the Grid to the lattice -/

theorem toSt_ofSt {R : Type} (g : Grid R) (L : St R ns) : toSt ns (ofSt g L) = L := by
  cases L
  simp only [toSt, ofSt]
  rw [St.mk.injEq]
  refine ⟨?_, ?_, ?_, ?_⟩ <;> funext k j i
  · simp only [Cons.get, mkIdx]
    rw [Cons.mk.injEq]
    refine ⟨rfl, rfl, rfl, rfl, rfl, rfl, rfl, rfl, ?_⟩
    funext n
    rw [dif_pos n.isLt]
    rfl
  · rfl
  · rfl
  · rfl

theorem shift_zero {R : Type} (L : St R ns) : L.shift 0 0 0 = L := by
  simp only [St.shift, add_zero]

theorem agree_lat {R : Type} {ng : ℕ} {g : Grid R} {L : St R ns} (hnx : ∀ t, 1 < g.nx t)
    (h : ∀ f : Fld, f.In (cfg ng ns) → ∀ y, Stored (cfg ng ns) g.nx f y → f.val g y = f.val (ofSt g L) y) :
    Agree (rngOf (cfg ng ns) g.nx) (toSt ns g) L := by
  have := agree_of_stored (o := fun _ => 0) (G := ofSt g L) hnx (by simpa using h)
  rwa [toSt_ofSt, shift_zero] at this

theorem val_shift {R : Type} {ng : ℕ} (g : Grid R) (L : St R ns) {f : Fld} (hf : f.In (cfg ng ns)) (y o : Idx) :
    f.val (ofSt g (L.shift (o 2) (o 1) (o 0))) y = f.val (ofSt g L) (fun t => y t + o t) := by
  cases f with
  | cell v =>
    cases v with
    | s n =>
      simp only [Fld.In, vars, cfg] at hf
      have hn : n < ns := by simpa using hf
      simp only [Fld.val, ofSt, St.shift, Cons.get, dif_pos hn]
    | _ => rfl
  | face n => rcases three n with rfl | rfl | rfl <;> rfl

theorem ofSt_nx {R : Type} (g g' : Grid R) (L : St R ns) {ng : ℕ} {f : Fld} (hf : f.In (cfg ng ns)) (y : Idx) :
    f.val (ofSt g L) y = f.val (ofSt g' L) y := by
  cases f with
  | cell v =>
    cases v with
    | s n =>
      simp only [Fld.In, vars, cfg] at hf
      have hn : n < ns := by simpa using hf
      simp only [Fld.val, ofSt, Cons.get, dif_pos hn]
    | _ => rfl
  | face n => rfl

/-- All boundaries of the Domain are periodic. -/
def AllPeriodic (D : Dom) : Prop := ∀ t, D.bcIn t = .periodic ∧ D.bcOut t = .periodic

theorem image_periodic {V : Type} [NegZeroClass V] (c : Cfg) {kin kout : Fin 3 → Kind} (h1 : ∀ t, kin t = .periodic)
    (h2 : ∀ t, kout t = .periodic) (g : Grid V) (f : Fld) (y : Idx) :
    image c kin kout g f y = f.val g (fun t => imgJ .periodic .periodic (lo c g.nx t) (hi c g.nx t) (extra g.nx f t) (g.nx t) (y t)) := by
  have hk : kin = fun _ => .periodic := funext h1
  have hk' : kout = fun _ => .periodic := funext h2
  subst hk; subst hk'
  have hm : ∀ t, ¬ Minus c (fun _ => Kind.periodic) (fun _ => Kind.periodic) g.nx f y t := by
    intro t h
    rcases h with ⟨_, h⟩ | ⟨_, h⟩ <;> rcases h with ⟨h, _⟩ | ⟨h, _⟩ <;> cases h
  have hw : ¬ ∃ t, OnWall c (fun _ => Kind.periodic) (fun _ => Kind.periodic) g.nx f y t := by
    rintro ⟨t, _, _, ⟨h, _⟩ | ⟨h, _⟩⟩ <;> cases h
  unfold image
  dsimp only
  rw [if_neg hw, if_neg (hm 0), if_neg (hm 1), if_neg (hm 2)]

/-- If the active zones and faces hold the values of a periodic lattice, so do all after `bvals_mhd`. -/
theorem bvals_lat {ng : ℕ} {D : Dom} (hP : AllPeriodic D) {g g' : Grid ℝ} (hg : g.nx = tot D)
    (hdim : Dims (cfg ng ns) (tot D)) (h3 : ∀ t, 1 < tot D t) {o : Fin 3 → Coord → Bool}
    (hb : bvals (cfg ng ns) 0 (single D) o (fun _ => g) (fun _ => 0) = .ok g') {L : St ℝ ns} (hL : Periodic (tot D) L)
    (h : ∀ f : Fld, f.In (cfg ng ns) → ∀ y, Active (cfg ng ns) (tot D) f y → f.val g y = f.val (ofSt g L) y) :
    g'.nx = tot D ∧ (∀ f : Fld, f.In (cfg ng ns) → ∀ y, Stored (cfg ng ns) (tot D) f y → f.val g' y = f.val (ofSt g' L) y) ∧
      Agree (rngOf (cfg ng ns) (tot D)) (toSt ns g') L := by
  have hin : ∀ t, D.bcIn t ≠ .later := fun t => by rw [(hP t).1]; decide
  have hout : ∀ t, D.bcOut t ≠ .later := fun t => by rw [(hP t).2]; decide
  obtain ⟨g'', e3, en, hI⟩ := ghost_images (cfg ng ns) D.bcIn D.bcOut g (by rw [hg]; exact hdim) hin hout 0 o
  have eD : oneGrid g.nx D.bcIn D.bcOut = single D := by rw [hg]; rfl
  rw [eD, hb] at e3
  injection e3 with e3
  subst e3
  have key : ∀ f : Fld, f.In (cfg ng ns) → ∀ y, Stored (cfg ng ns) (tot D) f y → f.val g' y = f.val (ofSt g' L) y := by
    intro f hf y hy
    have e1 := hI f hf y (by rw [hg]; exact hy)
    have ia := image_active (kin := D.bcIn) (kout := D.bcOut) hdim hin hout f y hy
    rw [image_periodic _ (fun t => (hP t).1) (fun t => (hP t).2), hg] at e1
    simp only [(hP _).1, (hP _).2] at ia
    rw [e1, h f hf _ ia]
    -- the image is a whole number of periods away
    let m : Fin 3 → ℤ := fun t => if y t < lo (cfg ng ns) (tot D) t then 1
      else if y t > hi (cfg ng ns) (tot D) t + extra (tot D) f t then -1 else 0
    have hm : (fun t => imgJ .periodic .periodic (lo (cfg ng ns) (tot D) t) (hi (cfg ng ns) (tot D) t)
        (extra (tot D) f t) (tot D t) (y t)) = fun t => y t + m t * tot D t := by
      funext t
      simp only [imgJ, m]
      split_ifs <;> ring
    rw [hm, ← val_shift g L hf y (fun t => m t * tot D t), hL m]
    exact ofSt_nx _ _ _ hf _
  refine ⟨by rw [en, hg], key, ?_⟩
  have := agree_lat (g := g') (L := L) (ng := ng) (by rw [en, hg]; exact h3) (by rw [en, hg]; exact key)
  rwa [en, hg] at this

/-- The active values after a step are those of the lattice after a step. -/
theorem advance_lat {R : Type} [Num R] {M : Method R W ns} (hM : M.Local) (q : Coef R) {ng : ℕ} (hng : 4 ≤ ng) (J : Work R W ns)
    {g : Grid R} {L : St R ns} (hnx : ∀ t, 1 < g.nx t) (ha : Agree (rngOf (cfg ng ns) g.nx) (toSt ns g) L)
    {f : Fld} (hf : f.In (cfg ng ns)) {y : Idx} (hy : Active (cfg ng ns) g.nx f y) :
    f.val (advance M q ng J g) y = f.val (ofSt g (lat M q L)) y := by
  have hok := rngOf_ok (ns := ns) hng hnx
  have a0 := hy 0; have a1 := hy 1; have a2 := hy 2
  cases f with
  | cell v =>
    simp only [extra_cell, add_zero] at a0 a1 a2
    have e1 := bU (J := J) (c := q) hM hok ha (k := y 2) (j := y 1) (i := y 0) a2.1 a2.2 a1.1 a1.2 a0.1 a0.2
    simp only [Fld.val, advance, ofSt, lat, e1]
  | face n =>
    rw [extra_face _ _ _ (hnx 0)] at a0
    rw [extra_face _ _ _ (hnx 1)] at a1
    rw [extra_face _ _ _ (hnx 2)] at a2
    rcases three n with rfl | rfl | rfl
    · simp only [Fin.isValue, Fin.reduceEq, if_true, if_false, add_zero] at a0 a1 a2
      exact bB1 (J := J) (c := q) hM hok ha (k := y 2) (j := y 1) (i := y 0) a2.1 a2.2 a1.1 a1.2 a0.1 a0.2
    · simp only [Fin.isValue, Fin.reduceEq, if_true, if_false, add_zero] at a0 a1 a2
      exact bB2 (J := J) (c := q) hM hok ha (k := y 2) (j := y 1) (i := y 0) a2.1 a2.2 a1.1 a1.2 a0.1 a0.2
    · simp only [Fin.isValue, Fin.reduceEq, if_true, if_false, add_zero] at a0 a1 a2
      exact bB3 (J := J) (c := q) hM hok ha (k := y 2) (j := y 1) (i := y 0) a2.1 a2.2 a1.1 a1.2 a0.1 a0.2

/-! ## The periodic continuation of the initial state -/

/-- The index among `lo … lo+n-1` a whole number of periods away. -/
def wrap (lo : ℤ) (n : ℕ) (i : ℤ) : ℤ := lo + (i - lo) % n

theorem wrap_in {lo : ℤ} {n : ℕ} {i : ℤ} (h1 : lo ≤ i) (h2 : i < lo + n) : wrap lo n i = i := by
  unfold wrap; rw [Int.emod_eq_of_lt (by omega) (by omega)]; omega

theorem wrap_add (lo : ℤ) (n : ℕ) (i m : ℤ) : wrap lo n (i + m * n) = wrap lo n i := by
  unfold wrap; rw [show i + m * n - lo = (i - lo) + m * n by ring, Int.add_mul_emod_self_right]

theorem wrap_end (lo : ℤ) {n : ℕ} (hn : 0 < n) : wrap lo n (lo + n) = lo := by
  have := wrap_add lo n lo 1
  rw [one_mul] at this
  rw [this, wrap_in (le_refl _) (by omega)]

/-- Periodic continuation of the active zones and faces. -/
def ext {R : Type} (ns : ℕ) (c : Cfg) (g : Grid R) : St R ns :=
  let S := toSt ns g
  let w := fun t => wrap (lo c g.nx t) (g.nx t)
  ⟨fun k j i => S.U (w 2 k) (w 1 j) (w 0 i), fun k j i => S.B1i (w 2 k) (w 1 j) (w 0 i),
   fun k j i => S.B2i (w 2 k) (w 1 j) (w 0 i), fun k j i => S.B3i (w 2 k) (w 1 j) (w 0 i)⟩

theorem ext_periodic {R : Type} (c : Cfg) (g : Grid R) : Periodic g.nx (ext ns c g) := by
  intro m
  simp only [ext, St.shift, wrap_add]

theorem ext_val {R : Type} (ng : ℕ) (g : Grid R) {f : Fld} (hf : f.In (cfg ng ns)) (y : Idx) :
    f.val (ofSt g (ext ns (cfg ng ns) g)) y = f.val g (fun t => wrap (lo (cfg ng ns) g.nx t) (g.nx t) (y t)) := by
  have e := mkIdx_eta (fun t => wrap (lo (cfg ng ns) g.nx t) (g.nx t) (y t))
  cases f with
  | cell v =>
    simp only [Fld.val]
    rw [← e]
    cases v with
    | s n =>
      simp only [Fld.In, vars, cfg] at hf
      have hn : n < ns := by simpa using hf
      simp only [ofSt, ext, toSt, Cons.get, dif_pos hn]
    | M n => rcases three n with rfl | rfl | rfl <;> rfl
    | Bc n => rcases three n with rfl | rfl | rfl <;> rfl
    | _ => rfl
  | face n =>
    simp only [Fld.val]
    rw [← e]
    rcases three n with rfl | rfl | rfl <;> rfl

theorem ext_active {R : Type} {ng : ℕ} {g : Grid R} (hnx : ∀ t, 1 < g.nx t) (hc : Closed (cfg ng ns) g) {f : Fld}
    (hf : f.In (cfg ng ns)) {y : Idx} (hy : Active (cfg ng ns) g.nx f y) :
    f.val g y = f.val (ofSt g (ext ns (cfg ng ns) g)) y := by
  rw [ext_val ng g hf]
  have hlo : ∀ t, hi (cfg ng ns) g.nx t + 1 = lo (cfg ng ns) g.nx t + g.nx t := by
    intro t; simp only [lo, hi, if_pos (hnx t)]; ring
  have hw : ∀ t, y t ≠ hi (cfg ng ns) g.nx t + 1 → wrap (lo (cfg ng ns) g.nx t) (g.nx t) (y t) = y t := by
    intro t h
    have := hy t
    have := hlo t
    have he : extra g.nx f t ≤ 1 := by unfold extra; split_ifs <;> omega
    exact wrap_in (by omega) (by omega)
  cases f with
  | cell v =>
    have : (fun t => wrap (lo (cfg ng ns) g.nx t) (g.nx t) (y t)) = y := by
      funext t
      refine hw t ?_
      have := hy t
      rw [extra_cell] at this
      omega
    rw [this]
  | face n =>
    by_cases h : y n = hi (cfg ng ns) g.nx n + 1
    · have e : (fun t => wrap (lo (cfg ng ns) g.nx t) (g.nx t) (y t)) = fun t' => if t' = n then lo (cfg ng ns) g.nx n else y t' := by
        funext t
        by_cases ht : t = n
        · subst ht
          rw [if_pos rfl, h, hlo, wrap_end _ (by have := hnx t; omega)]
        · rw [if_neg ht]
          refine hw t ?_
          have := hy t
          rw [extra_face _ _ _ (hnx t), if_neg (Ne.symm ht)] at this
          omega
      rw [e]
      exact hc n y hy h
    · have : (fun t => wrap (lo (cfg ng ns) g.nx t) (g.nx t) (y t)) = y := by
        funext t
        by_cases ht : t = n
        · subst ht; exact hw t h
        · refine hw t ?_
          have := hy t
          rw [extra_face _ _ _ (hnx t), if_neg (Ne.symm ht)] at this
          omega
      rw [this]

/-! ## Totals -/

/-- The variable of the zone structure. -/
def CVar.var : CVar ns → Var
  | .d => .d
  | .M1 => .M 0
  | .M2 => .M 1
  | .M3 => .M 2
  | .E => .E
  | .s n => .s n

theorem cvar_surj {v : Var} (h : Conserved ns v) : ∃ w : CVar ns, w.var = v := by
  cases v with
  | d => exact ⟨.d, rfl⟩
  | M n => rcases three n with rfl | rfl | rfl <;> [exact ⟨.M1, rfl⟩; exact ⟨.M2, rfl⟩; exact ⟨.M3, rfl⟩]
  | E => exact ⟨.E, rfl⟩
  | Bc n => exact absurd h id
  | s n => exact ⟨.s ⟨n, h⟩, rfl⟩

theorem cvar_in (ng : ℕ) (v : CVar ns) : (Fld.cell v.var).In (cfg ng ns) := by
  cases v <;> simp [Fld.In, CVar.var, vars, cfg]

theorem cvar_of (g : Grid ℝ) (L : St ℝ ns) (v : CVar ns) (k j i : ℤ) :
    (ofSt g L).U (mkIdx i j k) v.var = v.of (L.U k j i) := by
  cases v with
  | s n => simp only [ofSt, CVar.var, Cons.get, dif_pos n.isLt]; rfl
  | _ => rfl

theorem total_lat {ng : ℕ} {g : Grid ℝ} {L : St ℝ ns} (hnx : ∀ t, 1 < g.nx t)
    (h : ∀ f : Fld, f.In (cfg ng ns) → ∀ y, Stored (cfg ng ns) g.nx f y → f.val g y = f.val (ofSt g L) y) (v : CVar ns) :
    total (cfg ng ns) g v.var = zsum (g.nx 0) (g.nx 1) (g.nx 2) (lo (cfg ng ns) g.nx 0) (lo (cfg ng ns) g.nx 1)
      (lo (cfg ng ns) g.nx 2) (fun k j i => v.of (L.U k j i)) := by
  unfold total zsum zone
  refine Finset.sum_congr rfl fun c hc => Finset.sum_congr rfl fun b hb => Finset.sum_congr rfl fun a ha => ?_
  have h1 := Finset.mem_range.1 hc
  have h2 := Finset.mem_range.1 hb
  have h3 := Finset.mem_range.1 ha
  have hl : ∀ t, hi (cfg ng ns) g.nx t = lo (cfg ng ns) g.nx t + g.nx t - 1 := by
    intro t; simp only [lo, hi, if_pos (hnx t)]; ring
  have l0 := hl 0; have l1 := hl 1; have l2 := hl 2
  have := h (.cell v.var) (cvar_in ng v) _ (stored_mk (ng := ng) (ns := ns) hnx (.cell v.var)
    (i := lo (cfg ng ns) g.nx 0 + a) (j := lo (cfg ng ns) g.nx 1 + b) (k := lo (cfg ng ns) g.nx 2 + c)
    (by rw [extra_cell]; omega) (by omega) (by rw [extra_cell]; omega) (by omega) (by rw [extra_cell]; omega) (by omega))
  exact this.trans (cvar_of _ _ _ _ _ _)

theorem sum_pieces (D : Dom) (t : Fin 3) (f : ℕ → ℝ) : ∀ n, ∑ l ∈ Finset.range n, ∑ a ∈ Finset.range (D.nx t l), f (disp D t l + a) =
    ∑ x ∈ Finset.range (disp D t n), f x
  | 0 => by simp [disp]
  | n + 1 => by
    rw [Finset.sum_range_succ, sum_pieces D t f n]
    simp only [disp]
    rw [Finset.sum_range_add]

theorem sum_blocks (D : Dom) (f : ℕ → ℕ → ℕ → ℝ) :
    ∑ n ∈ Finset.range (D.NG 2), ∑ m ∈ Finset.range (D.NG 1), ∑ l ∈ Finset.range (D.NG 0),
      ∑ c ∈ Finset.range (D.nx 2 n), ∑ b ∈ Finset.range (D.nx 1 m), ∑ a ∈ Finset.range (D.nx 0 l),
        f (disp D 2 n + c) (disp D 1 m + b) (disp D 0 l + a) =
    ∑ z ∈ Finset.range (tot D 2), ∑ y ∈ Finset.range (tot D 1), ∑ x ∈ Finset.range (tot D 0), f z y x := by
  unfold tot
  rw [← sum_pieces D 2 (fun z => ∑ y ∈ Finset.range (disp D 1 (D.NG 1)), ∑ x ∈ Finset.range (disp D 0 (D.NG 0)), f z y x)]
  refine Finset.sum_congr rfl fun n _ => ?_
  have e : ∀ m, ∑ l ∈ Finset.range (D.NG 0), ∑ c ∈ Finset.range (D.nx 2 n), ∑ b ∈ Finset.range (D.nx 1 m), ∑ a ∈ Finset.range (D.nx 0 l),
        f (disp D 2 n + c) (disp D 1 m + b) (disp D 0 l + a) =
      ∑ c ∈ Finset.range (D.nx 2 n), ∑ b ∈ Finset.range (D.nx 1 m), ∑ x ∈ Finset.range (disp D 0 (D.NG 0)),
        f (disp D 2 n + c) (disp D 1 m + b) x := by
    intro m
    rw [Finset.sum_comm]
    refine Finset.sum_congr rfl fun c _ => ?_
    rw [Finset.sum_comm]
    refine Finset.sum_congr rfl fun b _ => ?_
    exact sum_pieces D 0 (fun x => f (disp D 2 n + c) (disp D 1 m + b) x) (D.NG 0)
  simp only [e]
  rw [Finset.sum_comm]
  refine Finset.sum_congr rfl fun c _ => ?_
  exact sum_pieces D 1 (fun y => ∑ x ∈ Finset.range (disp D 0 (D.NG 0)), f (disp D 2 n + c) y x) (D.NG 1)

theorem domTotal_eq {ng : ℕ} {D : Dom} {sz : ℕ} (hok : DomOk (cfg ng ns) sz D) (h3 : ∀ C, D.Has C → ∀ t, 1 < D.gnx C t)
    {s : Coord → Grid ℝ} {G : Grid ℝ} (hs : ∀ C, D.Has C → (s C).nx = D.gnx C) (hG : G.nx = tot D)
    (h : ∀ C, D.Has C → ∀ f : Fld, f.In (cfg ng ns) → ∀ y, Stored (cfg ng ns) (D.gnx C) f y →
      f.val (s C) y = f.val G (gl D C y)) (v : CVar ns) :
    domTotal (cfg ng ns) D s v.var = total (cfg ng ns) G v.var := by
  unfold domTotal total
  rw [hG, ← sum_blocks D (fun z y x => G.U (zone (cfg ng ns) (tot D) x y z) v.var)]
  refine Finset.sum_congr rfl fun n hn => Finset.sum_congr rfl fun m hm => Finset.sum_congr rfl fun l hl => ?_
  have hC : D.Has (fun t => if t = 0 then l else if t = 1 then m else n) := by
    intro t
    rcases three t with rfl | rfl | rfl
    · exact Finset.mem_range.1 hl
    · exact Finset.mem_range.1 hm
    · exact Finset.mem_range.1 hn
  set C : Coord := fun t => if t = 0 then l else if t = 1 then m else n with hCd
  rw [hs C hC]
  refine Finset.sum_congr rfl fun c hc => Finset.sum_congr rfl fun b hb => Finset.sum_congr rfl fun a ha => ?_
  have h1 : c < D.gnx C 2 := Finset.mem_range.1 hc
  have h2 : b < D.gnx C 1 := Finset.mem_range.1 hb
  have h3' : a < D.gnx C 0 := Finset.mem_range.1 ha
  have hll : ∀ t, hi (cfg ng ns) (D.gnx C) t = lo (cfg ng ns) (D.gnx C) t + D.gnx C t - 1 := by
    intro t; simp only [lo, hi, if_pos (h3 C hC t)]; ring
  have l0 := hll 0; have l1 := hll 1; have l2 := hll 2
  have := h C hC (.cell v.var) (cvar_in ng v) _ (stored_mk (ng := ng) (ns := ns) (h3 C hC) (.cell v.var)
    (i := lo (cfg ng ns) (D.gnx C) 0 + a) (j := lo (cfg ng ns) (D.gnx C) 1 + b) (k := lo (cfg ng ns) (D.gnx C) 2 + c)
    (by rw [extra_cell]; omega) (by omega) (by rw [extra_cell]; omega) (by omega) (by rw [extra_cell]; omega) (by omega))
  refine this.trans ?_
  have e : gl D C (mkIdx (lo (cfg ng ns) (D.gnx C) 0 + a) (lo (cfg ng ns) (D.gnx C) 1 + b) (lo (cfg ng ns) (D.gnx C) 2 + c)) =
      zone (cfg ng ns) (tot D) (disp D 0 l + a) (disp D 1 m + b) (disp D 2 n + c) := by
    unfold gl zone
    rw [mkIdx_add _ _ _ (fun t => (disp D t (C t) : ℤ))]
    have hlo : ∀ t, lo (cfg ng ns) (D.gnx C) t = lo (cfg ng ns) (tot D) t := by
      intro t
      have := (gnx_tot hok hC t).1.1 (h3 C hC t)
      simp only [lo, if_pos (h3 C hC t), if_pos this]
    rw [hlo 0, hlo 1, hlo 2]
    have c0 : C 0 = l := rfl
    have c1 : C 1 = m := rfl
    have c2 : C 2 = n := rfl
    rw [c0, c1, c2]
    push_cast
    congr 1 <;> ring
  rw [← e]
  rfl

/-! ## Runs -/

/-- The run on a single Grid exists. -/
theorem run1_exists {R : Type} [Num R] [Zero R] (M : Method R W ns) (q : ℕ → Coef R) {ng : ℕ} {D : Dom}
    (hD : DomOk (cfg ng ns) 0 (single D)) (o : ℕ → Fin 3 → Coord → Bool) (J : ℕ → Work R W ns) (G0 : Grid R)
    (h0 : G0.nx = tot D) :
    ∃ G : ℕ → Grid R, G 0 = G0 ∧ IsRun M q ng 0 (single D) o (fun n _ => J n) (fun n _ => G n) := by
  have hC0 : ∀ C, (single D).Has C → C = fun _ => 0 := by
    intro C hC; funext t; have := hC t; simp only [single] at this; omega
  have step : ∀ n (g : Grid R), g.nx = tot D → ∃ g' : Grid R,
      bvals (cfg ng ns) 0 (single D) (o n) (fun _ => advance M (q n) ng (J n) g) (fun _ => 0) = .ok g' ∧ g'.nx = tot D := by
    intro n g hg
    obtain ⟨σ, _, e3, hσ⟩ := bvals_all hD (o n) (fun _ => advance M (q n) ng (J n) g) (by
      intro C hC; rw [hC0 C hC]; exact hg)
    exact ⟨σ 3 (fun _ => 0), e3 _ (has_single D), (hσ 2 _ (has_single D)).2.1⟩
  let T := {g : Grid R // g.nx = tot D}
  let nxt : ℕ → T → T := fun n s => ⟨Classical.choose (step n s.1 s.2), (Classical.choose_spec (step n s.1 s.2)).2⟩
  let r : ℕ → T := fun n => Nat.rec ⟨G0, h0⟩ nxt n
  refine ⟨fun n => (r n).1, rfl, fun n C hC => ?_⟩
  rw [hC0 C hC]
  exact (Classical.choose_spec (step n (r n).1 (r n).2)).1

/-- The initial state of a run: the Grids hold the values of one state `G` of the undivided Domain on
their active zones and faces, and `bvals_mhd` has been called (src/main.c:400-420). -/
structure Start {R : Type} [Neg R] [Zero R] (c : Cfg) (sz : ℕ) (D : Dom) (G : Grid R) (s0 : Coord → Grid R) : Prop where
  nx : G.nx = tot D
  fill : ∃ (s : Coord → Grid R) (o : Fin 3 → Coord → Bool), (∀ C, D.Has C → (s C).nx = D.gnx C) ∧
    (∀ C, D.Has C → ∀ f : Fld, f.In c → ∀ y, Active c (D.gnx C) f y → f.val (s C) y = f.val G (gl D C y)) ∧
    ∀ C, D.Has C → bvals c sz D o s C = .ok (s0 C)

/-- The run on the undivided Domain that accompanies a run on the Grids. -/
theorem companion {R : Type} [Num R] [Zero R] (M : Method R W ns) (hM : M.Local) (q : ℕ → Coef R) {ng : ℕ} (hng : 4 ≤ ng) (Ds : List Dom)
    (D : Dom) (hDs : D ∈ Ds) (hD : Regular (cfg ng ns) D) (hne : ∃ C, D.Has C) (h3 : ∀ C, D.Has C → ∀ t, 1 < D.gnx C t)
    (o : ℕ → Fin 3 → Coord → Bool) (J : ℕ → Coord → Work R W ns) (s : ℕ → Coord → Grid R)
    (hs : IsRun M q ng (bufSize (cfg ng ns) Ds) D o J s) (Gi : Grid R) (hst : Start (cfg ng ns) (bufSize (cfg ng ns) Ds) D Gi (s 0)) :
    ∃ (G : ℕ → Grid R) (o0 : Fin 3 → Coord → Bool) (o' : ℕ → Fin 3 → Coord → Bool) (J' : ℕ → Work R W ns),
      bvals (cfg ng ns) 0 (single D) o0 (fun _ => Gi) (fun _ => 0) = .ok (G 0) ∧
      IsRun M q ng 0 (single D) o' (fun n _ => J' n) (fun n _ => G n) ∧
      (∀ n, (G n).nx = tot D) ∧ (∀ n C, D.Has C → (s n C).nx = D.gnx C) ∧
      ∀ n C, D.Has C → ∀ f : Fld, f.In (cfg ng ns) → ∀ y, Stored (cfg ng ns) (D.gnx C) f y →
        f.val (s n C) y = f.val (G n) (gl D C y) := by
  obtain ⟨hGn, si, oi, hnx, hact, hb⟩ := hst
  have hsing := single_domOk hDs hD hne
  have hok := hD.ok hDs
  obtain ⟨s', G', e1, e2, hA⟩ := decomposed_eq_single (cfg ng ns) Ds D hDs hD hne oi oi si Gi hnx hGn hact
  have es : ∀ C, D.Has C → s' C = s 0 C := by
    intro C hC
    have := hb C hC
    rw [e1 C hC] at this
    injection this
  have hG' : G'.nx = tot D := bvals_nx (s := fun _ => Gi) hsing oi (by
    intro C hC
    have : C = fun _ => 0 := by funext t; have := hC t; simp only [single] at this; omega
    subst this; exact hGn) (has_single D) e2
  have hs0 : ∀ C, D.Has C → (s 0 C).nx = D.gnx C := fun C hC => bvals_nx hok oi hnx hC (hb C hC)
  obtain ⟨G, eG, hG⟩ := run1_exists M q hsing o (fun n => J n (fun _ => 0)) G' hG'
  refine ⟨G, oi, o, fun n => J n (fun _ => 0), by rw [eG]; exact e2, hG, ?_, run_nx hok hs hs0, ?_⟩
  · intro n
    exact run_nx hsing hG (fun C hC => by
      have : C = fun _ => 0 := by funext t; have := hC t; simp only [single] at this; omega
      subst this; rw [eG]; exact hG') n (fun _ => 0) (has_single D)
  · refine decomposed_run M hM q hng Ds D hDs hD h3 o o J _ s G hs hG hs0 (by rw [eG]; exact hG') ?_
    intro C hC f hf y hy
    rw [← es C hC, eG]
    exact hA C hC f hf y hy

/-- **C32.** On a Domain with periodic boundaries, divided into Grids in any way, the sum over all active zones of
the density, each component of the momentum, the energy and each scalar stays what it was after any number of
cycles. -/
theorem conserved_run (M : Method ℝ W ns) (hM : M.Local) (q : ℕ → Coef ℝ) {ng : ℕ} (hng : 4 ≤ ng) (Ds : List Dom)
    (D : Dom) (hDs : D ∈ Ds) (hD : Regular (cfg ng ns) D) (h3 : ∀ C, D.Has C → ∀ t, 1 < D.gnx C t) (hP : AllPeriodic D)
    (o : ℕ → Fin 3 → Coord → Bool) (J : ℕ → Coord → Work ℝ W ns) (s : ℕ → Coord → Grid ℝ)
    (hs : IsRun M q ng (bufSize (cfg ng ns) Ds) D o J s) (Gi : Grid ℝ)
    (hst : Start (cfg ng ns) (bufSize (cfg ng ns) Ds) D Gi (s 0)) (hcl : Closed (cfg ng ns) Gi) (v : Var) (hv : Conserved ns v) (n : ℕ) :
    domTotal (cfg ng ns) D (s n) v = domTotal (cfg ng ns) D (s 0) v := by
  by_cases hne : ∃ C, D.Has C
  swap
  · have e : ∀ s' : Coord → Grid ℝ, domTotal (cfg ng ns) D s' v = 0 := by
      intro s'
      unfold domTotal
      refine Finset.sum_eq_zero fun n hn => Finset.sum_eq_zero fun m hm => Finset.sum_eq_zero fun l hl => ?_
      refine absurd ⟨fun t => if t = 0 then l else if t = 1 then m else n, fun t => ?_⟩ hne
      rcases three t with rfl | rfl | rfl
      · exact Finset.mem_range.1 hl
      · exact Finset.mem_range.1 hm
      · exact Finset.mem_range.1 hn
    rw [e, e]
  obtain ⟨w, rfl⟩ := cvar_surj hv
  have hok := hD.ok hDs
  obtain ⟨G, o0, o', J', e0, hG, hGn, hsn, hA⟩ := companion M hM q hng Ds D hDs hD hne h3 o J s hs Gi hst
  obtain ⟨C0, hC0⟩ := hne
  have hdim := dims_tot hok hC0
  have h3' : ∀ t, 1 < tot D t := fun t => (gnx_tot hok hC0 t).1.1 (h3 C0 hC0 t)
  rw [domTotal_eq hok h3 (hsn n) (hGn n) (hA n), domTotal_eq hok h3 (hsn 0) (hGn 0) (hA 0)]
  -- the lattices
  have hb0 := bvals_lat (L := ext ns (cfg ng ns) Gi) hP hst.nx hdim h3' e0 (by rw [← hst.nx]; exact ext_periodic _ _)
    (fun f hf y hy => ext_active (by rw [hst.nx]; exact h3') hcl hf (by rw [hst.nx]; exact hy))
  have inv : ∀ n, ∃ L : St ℝ ns, Periodic (tot D) L ∧ Agree (rngOf (cfg ng ns) (tot D)) (toSt ns (G n)) L ∧
      (∀ f : Fld, f.In (cfg ng ns) → ∀ y, Stored (cfg ng ns) (tot D) f y → f.val (G n) y = f.val (ofSt (G n) L) y) ∧
      total (cfg ng ns) (G n) w.var = total (cfg ng ns) (G 0) w.var := by
    intro n
    induction n with
    | zero => exact ⟨_, by rw [← hst.nx]; exact ext_periodic _ _, hb0.2.2, hb0.2.1, rfl⟩
    | succ n ih =>
      obtain ⟨L, hL, ha, hv', ht⟩ := ih
      have hb := bvals_lat (g := advance M (q n) ng (J' n) (G n)) (g' := G (n+1)) (L := lat M (q n) L) (o := o' n) hP (hGn n) hdim h3'
        (hG n (fun _ => 0) (has_single D)) (hL.lat M (q n)) (fun f hf y hy => by
          have := advance_lat hM (q n) hng (J' n) (g := G n) (by rw [hGn]; exact h3') (by rw [hGn]; exact ha) hf (y := y) (by rw [hGn]; exact hy)
          exact this.trans (ofSt_nx _ _ _ hf _))
      refine ⟨lat M (q n) L, hL.lat M (q n), hb.2.2, hb.2.1, ?_⟩
      rw [← ht, total_lat (L := lat M (q n) L) (by rw [hGn]; exact h3') (by rw [hGn]; exact hb.2.1),
        total_lat (L := L) (by rw [hGn]; exact h3') (by rw [hGn]; exact hv')]
      rw [hGn, hGn]
      exact lat_conserves hL M (q n) _ _ _ w
  exact (inv n).choose_spec.2.2.2

theorem next_mk (y : Idx) : next y 0 = mkIdx (y 0 + 1) (y 1) (y 2) ∧ next y 1 = mkIdx (y 0) (y 1 + 1) (y 2) ∧
    next y 2 = mkIdx (y 0) (y 1) (y 2 + 1) := by
  refine ⟨?_, ?_, ?_⟩ <;> funext t <;> rcases three t with rfl | rfl | rfl <;> rfl

theorem gdivB_eq (dx : Fin 3 → ℝ) (g : Grid ℝ) (y : Idx) :
    gdivB dx g y = divB (dx 0) (dx 1) (dx 2) (toSt ns g) (y 2) (y 1) (y 0) := by
  obtain ⟨e0, e1, e2⟩ := next_mk y
  unfold gdivB divB toSt
  dsimp only
  rw [e0, e1, e2, mkIdx_eta]

/-- The faces of an active zone are active. -/
theorem active_next {c : Cfg} {nx : Fin 3 → ℕ} (h3 : ∀ t, 1 < nx t) {y : Idx} (hy : ∀ t, lo c nx t ≤ y t ∧ y t ≤ hi c nx t) (n : Fin 3) :
    Active c nx (.face n) y ∧ Active c nx (.face n) (next y n) := by
  constructor <;> intro t <;> have := hy t <;> rw [extra_face _ _ _ (h3 t)]
  · split_ifs <;> omega
  · unfold next
    by_cases h : t = n
    · rw [if_pos h, if_pos h.symm]; omega
    · rw [if_neg h, if_neg (Ne.symm h)]; omega

theorem active_stored {c : Cfg} {nx : Fin 3 → ℕ} (hng : 1 ≤ c.ng) (h3 : ∀ t, 1 < nx t) {f : Fld} {y : Idx} (hy : Active c nx f y) :
    Stored c nx f y := by
  intro t
  have := hy t
  have ht := h3 t
  have e0 : 0 ≤ extra nx f t ∧ extra nx f t ≤ 1 := by unfold extra; split_ifs <;> omega
  simp only [lo, hi, size, if_pos ht] at *
  omega

/-- **C33.** On a Domain without reflecting boundaries, divided into Grids in any way, the divergence of the interface
fields of every active zone of every Grid stays what it was, after any number of cycles with any time steps. -/
theorem divB_run (M : Method ℝ W ns) (hM : M.Local) (dt : ℕ → ℝ) (dx : Fin 3 → ℝ) {ng : ℕ} (hng : 4 ≤ ng) (Ds : List Dom)
    (D : Dom) (hDs : D ∈ Ds) (hD : Regular (cfg ng ns) D) (h3 : ∀ C, D.Has C → ∀ t, 1 < D.gnx C t)
    (hR : ∀ t, D.bcIn t ≠ .reflect ∧ D.bcOut t ≠ .reflect)
    (o : ℕ → Fin 3 → Coord → Bool) (J : ℕ → Coord → Work ℝ W ns) (s : ℕ → Coord → Grid ℝ)
    (hs : IsRun M (fun n => ⟨dt n / dx 0, dt n / dx 1, dt n / dx 2⟩) ng (bufSize (cfg ng ns) Ds) D o J s) (Gi : Grid ℝ)
    (hst : Start (cfg ng ns) (bufSize (cfg ng ns) Ds) D Gi (s 0)) (n : ℕ) (C : Coord) (hC : D.Has C) (y : Idx)
    (hy : ∀ t, lo (cfg ng ns) (D.gnx C) t ≤ y t ∧ y t ≤ hi (cfg ng ns) (D.gnx C) t) :
    gdivB dx (s n C) y = gdivB dx (s 0 C) y := by
  have hok := hD.ok hDs
  obtain ⟨G, o0, o', J', e0, hG, hGn, hsn, hA⟩ := companion M hM _ hng Ds D hDs hD ⟨C, hC⟩ h3 o J s hs Gi hst
  have hdim := dims_tot hok hC
  have h3' : ∀ t, 1 < tot D t := fun t => (gnx_tot hok hC t).1.1 (h3 C hC t)
  have hcg : 1 ≤ (cfg ng ns).ng := by show 1 ≤ ng; omega
  have key : ∀ n, gdivB dx (s n C) y = gdivB dx (G n) (gl D C y) := by
    intro n
    have e : ∀ m z, Active (cfg ng ns) (D.gnx C) (.face m) z → (s n C).Bi m z = (G n).Bi m (gl D C z) := fun m z hz =>
      hA n C hC (.face m) rfl z (active_stored hcg (h3 C hC) hz)
    have gn : ∀ t, gl D C (next y t) = next (gl D C y) t := by
      intro t; funext t'; unfold gl next; split_ifs <;> ring
    unfold gdivB
    rw [e 0 _ (active_next (h3 C hC) hy 0).1, e 0 _ (active_next (h3 C hC) hy 0).2, e 1 _ (active_next (h3 C hC) hy 1).1,
      e 1 _ (active_next (h3 C hC) hy 1).2, e 2 _ (active_next (h3 C hC) hy 2).1, e 2 _ (active_next (h3 C hC) hy 2).2,
      gn, gn, gn]
  rw [key n, key 0]
  have hz : ∀ t, lo (cfg ng ns) (tot D) t ≤ gl D C y t ∧ gl D C y t ≤ hi (cfg ng ns) (tot D) t := by
    have h1 : Active (cfg ng ns) (D.gnx C) (.cell .d) y := by intro t; rw [extra_cell, add_zero]; exact hy t
    have h2 : Active (cfg ng ns) (tot D) (.cell .d) (gl D C y) := active_iff.1 (inR_gl hok hC (active_iff.2 h1))
    intro t
    have := h2 t
    rwa [extra_cell, add_zero] at this
  generalize gl D C y = z at hz
  induction n with
  | zero => rfl
  | succ n ih =>
    rw [← ih]
    have hin : ∀ t, D.bcIn t ≠ .later := hD.kin
    have hout : ∀ t, D.bcOut t ≠ .later := hD.kout
    set g := advance M ⟨dt n / dx 0, dt n / dx 1, dt n / dx 2⟩ ng (J' n) (G n) with hg
    have gnx : g.nx = tot D := hGn n
    obtain ⟨g', e, _, hf⟩ := active_unchanged (cfg ng ns) D.bcIn D.bcOut g (by rw [gnx]; exact hdim) hin hout 0 (o' n)
    have eD : oneGrid g.nx D.bcIn D.bcOut = single D := by rw [gnx]; rfl
    rw [eD] at e
    have r := hG n (fun _ => 0) (has_single D)
    dsimp only at r
    rw [← hg, e] at r
    injection r with r
    have hB : ∀ m x, Active (cfg ng ns) (tot D) (.face m) x → (G (n+1)).Bi m x = g.Bi m x := by
      intro m x hx
      rw [← r, hf rfl m x (by rw [gnx]; exact hx), if_neg]
      rintro ⟨_, ⟨h, _⟩ | ⟨h, _⟩⟩
      · exact (hR m).1 h
      · exact (hR m).2 h
    have e1 : gdivB dx (G (n+1)) z = gdivB dx g z := by
      unfold gdivB
      rw [hB 0 _ (active_next h3' hz 0).1, hB 0 _ (active_next h3' hz 0).2, hB 1 _ (active_next h3' hz 1).1,
        hB 1 _ (active_next h3' hz 1).2, hB 2 _ (active_next h3' hz 2).1, hB 2 _ (active_next h3' hz 2).2]
    rw [e1, gdivB_eq (ns := ns), gdivB_eq (ns := ns), hg]
    unfold advance
    rw [toSt_ofSt]
    unfold integrate
    have z0 := hz 0; have z1 := hz 1; have z2 := hz 2
    refine update_divB _ _ _ _ _ _ _ _ _ _ _ _ ?_ ?_ ?_ ?_ ?_ ?_
    all_goals rw [hGn]
    · exact z2.1
    · exact z2.2
    · exact z1.1
    · exact z1.2
    · exact z0.1
    · exact z0.2

end Athena.Vl3
