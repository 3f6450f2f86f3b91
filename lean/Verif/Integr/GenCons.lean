import Verif.Integr.Gen
import Mathlib.Algebra.BigOperators.Fin

/-!
# Conservation and div B over any number of cycles, for any integrator, in one, two or three dimensions
-/

namespace Athena.Gen
open Athena.Bvals hiding Rng
open Athena.Vl3

variable {Q Wk : Type} {ns : ℕ}

/-! ## Specification -/

/-- What is conserved: density, momentum, energy, scalars; the normal component of the interface field in every
direction of the Domain; the zone-centred field in the others. -/
def Kept (A : Fin 3 → Bool) (ns : ℕ) : Fld → Prop
  | .cell .d => True
  | .cell (.M _) => True
  | .cell .E => True
  | .cell (.Bc t) => A t = false
  | .cell (.s n) => n < ns
  | .face t => A t = true

/-- Sum of a field over the active zones of a Grid (over their left faces for an interface field). -/
def total (c : Cfg) (g : Grid ℝ) (f : Fld) : ℝ :=
  ∑ d ∈ Finset.range (g.nx 2), ∑ b ∈ Finset.range (g.nx 1), ∑ a ∈ Finset.range (g.nx 0), f.val g (zone c g.nx a b d)

/-- Sum over the active zones of all Grids of the Domain. -/
def domTotal (c : Cfg) (D : Dom) (s : Coord → Grid ℝ) (f : Fld) : ℝ :=
  ∑ n ∈ Finset.range (D.NG 2), ∑ m ∈ Finset.range (D.NG 1), ∑ l ∈ Finset.range (D.NG 0),
    total c (s (fun t => if t = 0 then l else if t = 1 then m else n)) f

/-- Divergence of the interface fields of the zone `y`: the directions with one zone do not contribute. -/
noncomputable def gdivB (dx : Fin 3 → ℝ) (g : Grid ℝ) (y : Idx) : ℝ :=
  ∑ t : Fin 3, if 1 < g.nx t then (g.Bi t (next y t) - g.Bi t y) / dx t else 0

/-- The boundaries in the directions `A` are periodic. -/
def AllPeriodic (A : Fin 3 → Bool) (D : Dom) : Prop := ∀ t, A t = true → D.bcIn t = .periodic ∧ D.bcOut t = .periodic

/-! ## What an integrator has to satisfy -/

/-- A field on a lattice. -/
def lval (f : Fld) (L : St ℝ ns) : Arr ℝ := fun k j i =>
  match f with
  | .cell v => (L.U k j i).get 0 v
  | .face n => (if n = 0 then L.B1i else if n = 1 then L.B2i else L.B3i) k j i

/-- A step keeps the sum of every conserved quantity over a period. -/
def Conserves (A : Fin 3 → Bool) (lat : St ℝ ns → St ℝ ns) : Prop :=
  ∀ (N : Fin 3 → ℕ) (L : St ℝ ns), Periodic N L → (∀ t, A t = false → N t = 1) → ∀ f, Kept A ns f → ∀ is js ks,
    zsum (N 0) (N 1) (N 2) is js ks (lval f (lat L)) = zsum (N 0) (N 1) (N 2) is js ks (lval f L)

/-- Divergence on a lattice. -/
noncomputable def divA (A : Fin 3 → Bool) (dx : Fin 3 → ℝ) (S : St ℝ ns) (k j i : ℤ) : ℝ :=
  (if A 0 then (S.B1i k j (i+1) - S.B1i k j i) / dx 0 else 0) + (if A 1 then (S.B2i k (j+1) i - S.B2i k j i) / dx 1 else 0)
    + (if A 2 then (S.B3i (k+1) j i - S.B3i k j i) / dx 2 else 0)

/-- A step keeps the divergence of every active zone. -/
def KeepsDivB (A : Fin 3 → Bool) (dx : Fin 3 → ℝ) (I : Rng → St ℝ ns → Wk → St ℝ ns) : Prop :=
  ∀ g S J k j i, RngOk A g → g.ks ≤ k → k ≤ g.ke → g.js ≤ j → j ≤ g.je → g.is ≤ i → i ≤ g.ie →
    divA A dx (I g S J) k j i = divA A dx S k j i

/-! ## Lemmas -/

theorem kept_in {A : Fin 3 → Bool} {f : Fld} (h : Kept A ns f) (ng : ℕ) : f.In (cfg ng ns) := by
  cases f with
  | cell v =>
    cases v with
    | s n => simp [Fld.In, vars, cfg]; exact h
    | M n => rcases three n with rfl | rfl | rfl <;> simp [Fld.In, vars, cfg]
    | Bc n => rcases three n with rfl | rfl | rfl <;> simp [Fld.In, vars, cfg]
    | _ => simp [Fld.In, vars, cfg]
  | face n => rfl

theorem lval_eq {A : Fin 3 → Bool} {f : Fld} (h : Kept A ns f) (g : Grid ℝ) (L : St ℝ ns) (k j i : ℤ) :
    f.val (ofSt g L) (mkIdx i j k) = lval f L k j i := by
  cases f with
  | cell v =>
    cases v with
    | s n =>
      have hn : n < ns := h
      simp only [Fld.val, ofSt, lval, Cons.get, dif_pos hn]; rfl
    | _ => rfl
  | face n => rfl

theorem image_same {A : Fin 3 → Bool} {ng : ℕ} {kin kout : Fin 3 → Kind} {g : Grid ℝ} (hA : HasDim A g.nx)
    (hP : ∀ t, A t = true → kin t = .periodic ∧ kout t = .periodic) (f : Fld) {y : Idx} (hy : Stored (cfg ng ns) g.nx f y) :
    ∃ m : Fin 3 → ℤ, image (cfg ng ns) kin kout g f y = f.val g (fun t => y t + m t * g.nx t) ∧
      (∀ t, imgJ (kin t) (kout t) (lo (cfg ng ns) g.nx t) (hi (cfg ng ns) g.nx t) (extra g.nx f t) (g.nx t) (y t) = y t + m t * g.nx t) := by
  have hcol : ∀ t, A t = false → ¬ y t < lo (cfg ng ns) g.nx t ∧ ¬ y t > hi (cfg ng ns) g.nx t + extra g.nx f t := by
    intro t ha
    have h1 := hy t
    have hx : 0 ≤ extra g.nx f t := by unfold extra; split_ifs <;> omega
    rcases hA.cases (cfg ng ns) t with ⟨ha', _⟩ | ⟨_, e1, e2, e3, e4⟩
    · rw [ha] at ha'; simp at ha'
    · rw [e3] at h1; rw [e1, e2]; omega
  have hm : ∀ t, ¬ Minus (cfg ng ns) kin kout g.nx f y t := by
    intro t h
    rcases Bool.eq_false_or_eq_true (A t) with ha | ha
    · obtain ⟨p1, p2⟩ := hP t ha
      rcases h with ⟨_, h⟩ | ⟨_, h⟩
      · rw [p1] at h; rcases h with ⟨h, _⟩ | ⟨h, _⟩ <;> cases h
      · rw [p2] at h; rcases h with ⟨h, _⟩ | ⟨h, _⟩ <;> cases h
    · rcases h with ⟨h, _⟩ | ⟨h, _⟩
      · exact (hcol t ha).1 h
      · exact (hcol t ha).2 h
  have hw : ¬ ∃ t, OnWall (cfg ng ns) kin kout g.nx f y t := by
    rintro ⟨t, _, h1, h⟩
    have ha := (hA t).1.1 h1
    obtain ⟨p1, p2⟩ := hP t ha
    rw [p1, p2] at h
    rcases h with ⟨h, _⟩ | ⟨h, _⟩ <;> cases h
  have key : ∀ t, imgJ (kin t) (kout t) (lo (cfg ng ns) g.nx t) (hi (cfg ng ns) g.nx t) (extra g.nx f t) (g.nx t) (y t) =
      y t + (if y t < lo (cfg ng ns) g.nx t then 1 else if y t > hi (cfg ng ns) g.nx t + extra g.nx f t then -1 else 0) * g.nx t := by
    intro t
    rcases Bool.eq_false_or_eq_true (A t) with ha | ha
    · obtain ⟨p1, p2⟩ := hP t ha
      rw [p1, p2]
      simp only [imgJ]
      split_ifs <;> ring
    · obtain ⟨q1, q2⟩ := hcol t ha
      simp only [imgJ, if_neg q1, if_neg q2]
      ring
  refine ⟨fun t => if y t < lo (cfg ng ns) g.nx t then 1 else if y t > hi (cfg ng ns) g.nx t + extra g.nx f t then -1 else 0, ?_, key⟩
  unfold image
  dsimp only
  rw [if_neg hw, if_neg (hm 0), if_neg (hm 1), if_neg (hm 2)]
  simp only [key]

/-- If the active zones and faces hold the values of a periodic lattice, so do all after `bvals_mhd`. -/
theorem bvals_lat {A : Fin 3 → Bool} {ng : ℕ} {D : Dom} (hP : AllPeriodic A D) {g g' : Grid ℝ} (hg : g.nx = tot D)
    (hdim : Dims (cfg ng ns) (tot D)) (hA : HasDim A (tot D)) (hin : ∀ t, D.bcIn t ≠ .later) (hout : ∀ t, D.bcOut t ≠ .later)
    {o : Fin 3 → Coord → Bool}
    (hb : bvals (cfg ng ns) 0 (single D) o (fun _ => g) (fun _ => 0) = .ok g') {L : St ℝ ns} (hL : Periodic (tot D) L)
    (h : ∀ f : Fld, f.In (cfg ng ns) → ∀ y, Active (cfg ng ns) (tot D) f y → f.val g y = f.val (ofSt g L) y) :
    g'.nx = tot D ∧ AgreeG ng g' L := by
  obtain ⟨g'', e3, en, hI⟩ := ghost_images (cfg ng ns) D.bcIn D.bcOut g (by rw [hg]; exact hdim) hin hout 0 o
  have eD : oneGrid g.nx D.bcIn D.bcOut = single D := by rw [hg]; rfl
  rw [eD, hb] at e3
  injection e3 with e3
  subst e3
  refine ⟨by rw [en, hg], ?_⟩
  intro f hf y hy
  rw [en, hg] at hy
  have e1 := hI f hf y (by rw [hg]; exact hy)
  have ia := image_active (kin := D.bcIn) (kout := D.bcOut) hdim hin hout f y hy
  obtain ⟨m, e2, e4⟩ := image_same (ng := ng) (ns := ns) (g := g) (kin := D.bcIn) (kout := D.bcOut) (by rw [hg]; exact hA) hP f (by rw [hg]; exact hy)
  rw [e1, e2]
  rw [hg] at e4 ⊢
  simp only [e4] at ia
  rw [h f hf _ ia, ← val_shift g L hf y (fun t => m t * tot D t), hL m]
  exact ofSt_nx _ _ _ hf _

theorem hl_dim {A : Fin 3 → Bool} {nx : Fin 3 → ℕ} (hA : HasDim A nx) (c : Cfg) (t : Fin 3) :
    hi c nx t + 1 = lo c nx t + nx t := by
  rcases hA.cases c t with ⟨_, e1, e2, _, _⟩ | ⟨_, e1, e2, _, e4⟩
  · rw [e1, e2]; ring
  · rw [e1, e2, e4]; simp

theorem ext_active {A : Fin 3 → Bool} {ng : ℕ} {g : Grid ℝ} (hA : HasDim A g.nx) (hc : Closed (cfg ng ns) g) {f : Fld}
    (hf : f.In (cfg ng ns)) {y : Idx} (hy : Active (cfg ng ns) g.nx f y) :
    f.val g y = f.val (ofSt g (ext ns (cfg ng ns) g)) y := by
  rw [ext_val ng g hf]
  have hlo := hl_dim hA (cfg ng ns)
  have hw : ∀ t, y t ≠ hi (cfg ng ns) g.nx t + 1 → wrap (lo (cfg ng ns) g.nx t) (g.nx t) (y t) = y t := by
    intro t h
    have := hy t
    have := hlo t
    have he : extra g.nx f t ≤ 1 := by unfold extra; split_ifs <;> omega
    exact wrap_in (by omega) (by omega)
  cases f with
  | cell v =>
    have : (fun t => wrap (lo (cfg ng ns) g.nx t) (g.nx t) (y t)) = y := by
      funext t
      refine hw t ?_
      have := hy t
      rw [extra_cell] at this
      omega
    rw [this]
  | face n =>
    have hne : ∀ t, ¬ t = n → y t ≠ hi (cfg ng ns) g.nx t + 1 := by
      intro t ht
      have := hy t
      rw [extra_dim hA, if_neg (Ne.symm ht)] at this
      omega
    by_cases h : y n = hi (cfg ng ns) g.nx n + 1
    · have e : (fun t => wrap (lo (cfg ng ns) g.nx t) (g.nx t) (y t)) = fun t' => if t' = n then lo (cfg ng ns) g.nx n else y t' := by
        funext t
        by_cases ht : t = n
        · subst ht
          have h0 : 0 < g.nx t := by have := hy t; have := hA t; by_contra h0; rcases Bool.eq_false_or_eq_true (A t) with ha | ha
                                     · have := (hA t).1.2 ha; omega
                                     · have := (hA t).2 ha; omega
          rw [if_pos rfl, h, hlo, wrap_end _ h0]
        · rw [if_neg ht]
          exact hw t (hne t ht)
      rw [e]
      exact hc n y hy h
    · have : (fun t => wrap (lo (cfg ng ns) g.nx t) (g.nx t) (y t)) = y := by
        funext t
        by_cases ht : t = n
        · subst ht; exact hw t h
        · exact hw t (hne t ht)
      rw [this]

theorem zone_active {A : Fin 3 → Bool} {nx : Fin 3 → ℕ} (hA : HasDim A nx) (c : Cfg) (f : Fld) {a b d : ℕ} (ha : a < nx 0)
    (hb : b < nx 1) (hd : d < nx 2) : Active c nx f (zone c nx a b d) := by
  have h0 := hl_dim hA c 0; have h1 := hl_dim hA c 1; have h2 := hl_dim hA c 2
  have hx : ∀ t, 0 ≤ extra nx f t := by intro t; unfold extra; split_ifs <;> omega
  intro t
  have := hx t
  rcases three t with rfl | rfl | rfl
  · show lo c nx 0 ≤ lo c nx 0 + a ∧ lo c nx 0 + a ≤ _; omega
  · show lo c nx 1 ≤ lo c nx 1 + b ∧ lo c nx 1 + b ≤ _; omega
  · show lo c nx 2 ≤ lo c nx 2 + d ∧ lo c nx 2 + d ≤ _; omega

theorem active_stored {A : Fin 3 → Bool} {nx : Fin 3 → ℕ} (hA : HasDim A nx) {c : Cfg} (hng : 1 ≤ c.ng) {f : Fld} {y : Idx}
    (hy : Active c nx f y) : Stored c nx f y := by
  intro t
  have := hy t
  rcases hA.cases c t with ⟨_, e1, e2, e3, e4⟩ | ⟨_, e1, e2, e3, e4⟩
  · have e0 : 0 ≤ extra nx f t ∧ extra nx f t ≤ 1 := by unfold extra; split_ifs <;> omega
    rw [e3]; omega
  · have e0 : extra nx f t = 0 := by unfold extra; rw [if_neg]; rintro ⟨_, h⟩; omega
    rw [e3]; omega

theorem total_lat {A : Fin 3 → Bool} {ng : ℕ} (hng : 1 ≤ ng) {g : Grid ℝ} {L : St ℝ ns} (hA : HasDim A g.nx) (h : AgreeG ng g L)
    {f : Fld} (hf : Kept A ns f) :
    total (cfg ng ns) g f = zsum (g.nx 0) (g.nx 1) (g.nx 2) (lo (cfg ng ns) g.nx 0) (lo (cfg ng ns) g.nx 1)
      (lo (cfg ng ns) g.nx 2) (lval f L) := by
  unfold total zsum
  refine Finset.sum_congr rfl fun c hc => Finset.sum_congr rfl fun b hb => Finset.sum_congr rfl fun a ha => ?_
  have := h f (kept_in hf ng) _ (active_stored hA (c := cfg ng ns) hng
    (zone_active hA _ f (Finset.mem_range.1 ha) (Finset.mem_range.1 hb) (Finset.mem_range.1 hc)))
  exact this.trans (lval_eq hf _ _ _ _ _)

theorem domTotal_eq {A : Fin 3 → Bool} {ng : ℕ} (hng : 1 ≤ ng) {D : Dom} {sz : ℕ} (hok : DomOk (cfg ng ns) sz D)
    (hA : ∀ C, D.Has C → HasDim A (D.gnx C))
    {s : Coord → Grid ℝ} {G : Grid ℝ} (hs : ∀ C, D.Has C → (s C).nx = D.gnx C) (hG : G.nx = tot D)
    (h : ∀ C, D.Has C → ∀ f : Fld, f.In (cfg ng ns) → ∀ y, Stored (cfg ng ns) (D.gnx C) f y →
      f.val (s C) y = f.val G (gl D C y)) {f : Fld} (hf : f.In (cfg ng ns)) :
    domTotal (cfg ng ns) D s f = total (cfg ng ns) G f := by
  unfold domTotal total
  rw [hG, ← sum_blocks D (fun z y x => f.val G (zone (cfg ng ns) (tot D) x y z))]
  refine Finset.sum_congr rfl fun n hn => Finset.sum_congr rfl fun m hm => Finset.sum_congr rfl fun l hl => ?_
  have hC : D.Has (fun t => if t = 0 then l else if t = 1 then m else n) := by
    intro t
    rcases three t with rfl | rfl | rfl
    · exact Finset.mem_range.1 hl
    · exact Finset.mem_range.1 hm
    · exact Finset.mem_range.1 hn
  set C : Coord := fun t => if t = 0 then l else if t = 1 then m else n with hCd
  rw [hs C hC]
  refine Finset.sum_congr rfl fun c hc => Finset.sum_congr rfl fun b hb => Finset.sum_congr rfl fun a ha => ?_
  have h1 : c < D.gnx C 2 := Finset.mem_range.1 hc
  have h2 : b < D.gnx C 1 := Finset.mem_range.1 hb
  have h3' : a < D.gnx C 0 := Finset.mem_range.1 ha
  have := h C hC f hf _ (active_stored (hA C hC) (c := cfg ng ns) hng (zone_active (hA C hC) (cfg ng ns) f h3' h2 h1))
  refine this.trans ?_
  have e : gl D C (zone (cfg ng ns) (D.gnx C) a b c) =
      zone (cfg ng ns) (tot D) (disp D 0 l + a) (disp D 1 m + b) (disp D 2 n + c) := by
    unfold gl zone
    rw [mkIdx_add _ _ _ (fun t => (disp D t (C t) : ℤ))]
    have hlo : ∀ t, lo (cfg ng ns) (D.gnx C) t = lo (cfg ng ns) (tot D) t := by
      intro t
      have := (gnx_tot hok hC t).1
      by_cases hh : 1 < D.gnx C t
      · simp only [lo, if_pos hh, if_pos (this.1 hh)]
      · simp only [lo]; rw [if_neg hh, if_neg (fun h' => hh (this.2 h'))]
    rw [hlo 0, hlo 1, hlo 2]
    have c0 : C 0 = l := rfl
    have c1 : C 1 = m := rfl
    have c2 : C 2 = n := rfl
    rw [c0, c1, c2]
    push_cast
    congr 1 <;> ring
  rw [← e]

/-! ## Runs -/

/-- On a Domain with periodic boundaries, divided into Grids in any way, the sum over all active zones of every
conserved quantity stays what it was after any number of cycles. -/
theorem conserved_run {A : Fin 3 → Bool} {I : Integ Q ℝ Wk ns} {lat : Q → St ℝ ns → St ℝ ns} (hI : Lattice A I lat)
    (q : ℕ → Q) (hcons : ∀ n, Conserves A (lat (q n))) {ng : ℕ} (hng : 4 ≤ ng) (Ds : List Dom)
    (D : Dom) (hDs : D ∈ Ds) (hD : Regular (cfg ng ns) D) (hA : ∀ C, D.Has C → HasDim A (D.gnx C)) (hP : AllPeriodic A D)
    (o : ℕ → Fin 3 → Coord → Bool) (J : ℕ → Coord → Wk) (s : ℕ → Coord → Grid ℝ)
    (hs : IsRun I q ng (bufSize (cfg ng ns) Ds) D o J s) (Gi : Grid ℝ)
    (hst : Start (cfg ng ns) (bufSize (cfg ng ns) Ds) D Gi (s 0)) (hcl : Closed (cfg ng ns) Gi) (f : Fld) (hf : Kept A ns f) (n : ℕ) :
    domTotal (cfg ng ns) D (s n) f = domTotal (cfg ng ns) D (s 0) f := by
  by_cases hne : ∃ C, D.Has C
  swap
  · have e : ∀ s' : Coord → Grid ℝ, domTotal (cfg ng ns) D s' f = 0 := by
      intro s'
      unfold domTotal
      refine Finset.sum_eq_zero fun n hn => Finset.sum_eq_zero fun m hm => Finset.sum_eq_zero fun l hl => ?_
      refine absurd ⟨fun t => if t = 0 then l else if t = 1 then m else n, fun t => ?_⟩ hne
      rcases three t with rfl | rfl | rfl
      · exact Finset.mem_range.1 hl
      · exact Finset.mem_range.1 hm
      · exact Finset.mem_range.1 hn
    rw [e, e]
  have hok := hD.ok hDs
  have h1g : 1 ≤ ng := by omega
  obtain ⟨G, o0, o', J', e0, hG, hGn, hsn, hE⟩ := companion hI q hng Ds D hDs hD hne hA o J s hs Gi hst
  obtain ⟨C0, hC0⟩ := hne
  have hdim := dims_tot hok hC0
  have hA' := hasDim_tot hok hC0 (hA C0 hC0)
  have hin : ∀ t, D.bcIn t ≠ .later := hD.kin
  have hout : ∀ t, D.bcOut t ≠ .later := hD.kout
  rw [domTotal_eq h1g hok hA (hsn n) (hGn n) (hE n) (kept_in hf ng), domTotal_eq h1g hok hA (hsn 0) (hGn 0) (hE 0) (kept_in hf ng)]
  -- the lattices
  have hb0 := bvals_lat (L := ext ns (cfg ng ns) Gi) hP hst.nx hdim hA' hin hout e0 (by rw [← hst.nx]; exact ext_periodic _ _)
    (fun f hf y hy => ext_active (by rw [hst.nx]; exact hA') hcl hf (by rw [hst.nx]; exact hy))
  have inv : ∀ n, ∃ L : St ℝ ns, Periodic (tot D) L ∧ AgreeG ng (G n) L ∧
      total (cfg ng ns) (G n) f = total (cfg ng ns) (G 0) f := by
    intro n
    induction n with
    | zero => exact ⟨_, by rw [← hst.nx]; exact ext_periodic _ _, hb0.2, rfl⟩
    | succ n ih =>
      obtain ⟨L, hL, hv', ht⟩ := ih
      have hL' : Periodic (tot D) (lat (q n) L) := fun m => by rw [hI.shift, hL m]
      have hb := bvals_lat (g := advance I (q n) ng (J' n) (G n)) (g' := G (n+1)) (L := lat (q n) L) (o := o' n) hP (hGn n) hdim hA' hin hout
        (hG n (fun _ => 0) (has_single D)) hL' (fun f hf y hy => by
          have := hI.active (q n) ng (J' n) (G n) L hng (by rw [hGn]; exact hA') hv' f hf y (by rw [hGn]; exact hy)
          exact this.trans (ofSt_nx _ _ _ hf _))
      refine ⟨lat (q n) L, hL', hb.2, ?_⟩
      rw [← ht, total_lat h1g (L := lat (q n) L) (by rw [hGn]; exact hA') hb.2 hf, total_lat h1g (L := L) (by rw [hGn]; exact hA') hv' hf]
      rw [hGn, hGn]
      exact hcons n (tot D) L hL (fun t ha => (hA' t).2 ha) f hf _ _ _
  exact (inv n).choose_spec.2.2

theorem gdivB_eq {A : Fin 3 → Bool} (dx : Fin 3 → ℝ) {g : Grid ℝ} (hA : HasDim A g.nx) (y : Idx) :
    gdivB dx g y = divA A dx (toSt ns g) (y 2) (y 1) (y 0) := by
  obtain ⟨e0, e1, e2⟩ := next_mk y
  have hc : ∀ (t : Fin 3) (x : ℝ), (if 1 < g.nx t then x else 0) = if A t then x else 0 := by
    intro t x
    by_cases h : 1 < g.nx t
    · rw [if_pos h, if_pos ((hA t).1.1 h)]
    · rw [if_neg h, if_neg (fun h' => h ((hA t).1.2 h'))]
  unfold gdivB divA toSt
  dsimp only
  rw [Fin.sum_univ_three, hc, hc, hc, e0, e1, e2, mkIdx_eta]

/-- The faces of an active zone in the directions of the Domain are active. -/
theorem active_next {A : Fin 3 → Bool} {c : Cfg} {nx : Fin 3 → ℕ} (hA : HasDim A nx) {y : Idx}
    (hy : ∀ t, lo c nx t ≤ y t ∧ y t ≤ hi c nx t) {n : Fin 3} (hn : A n = true) :
    Active c nx (.face n) y ∧ Active c nx (.face n) (next y n) := by
  have hw : ∀ t, n = t → wid (A t) 1 = 1 := by rintro t rfl; rw [hn]; rfl
  constructor <;> intro t <;> have := hy t <;> rw [extra_dim hA]
  · split_ifs with h
    · rw [hw t h]; omega
    · omega
  · unfold next
    by_cases h : t = n
    · rw [if_pos h, if_pos h.symm, hw t h.symm]; omega
    · rw [if_neg h, if_neg (Ne.symm h)]; omega

theorem gdivB_congr {A : Fin 3 → Bool} {c : Cfg} {nx : Fin 3 → ℕ} (hA : HasDim A nx) {g : Grid ℝ} (hg : g.nx = nx) (dx : Fin 3 → ℝ) {y : Idx}
    (hy : ∀ t, lo c nx t ≤ y t ∧ y t ≤ hi c nx t) {g' : Grid ℝ} {z : Idx} (h' : ∀ t, 1 < nx t ↔ 1 < g'.nx t)
    (e : ∀ m, g.Bi m y = g'.Bi m z ∨ ¬ Active c nx (.face m) y) (e' : ∀ m, g.Bi m (next y m) = g'.Bi m (next z m) ∨ ¬ Active c nx (.face m) (next y m)) :
    gdivB dx g y = gdivB dx g' z := by
  unfold gdivB
  refine Finset.sum_congr rfl fun t _ => ?_
  rw [hg]
  by_cases h : 1 < nx t
  · rw [if_pos h, if_pos ((h' t).1 h)]
    have ha := active_next hA hy ((hA t).1.1 h)
    rw [(e t).resolve_right (fun x => x ha.1), (e' t).resolve_right (fun x => x ha.2)]
  · rw [if_neg h, if_neg (fun x => h ((h' t).2 x))]

/-- On a Domain without reflecting boundaries, divided into Grids in any way, the divergence of the interface
fields of every active zone of every Grid stays what it was, after any number of cycles. -/
theorem divB_run {A : Fin 3 → Bool} {I : Integ Q ℝ Wk ns} {lat : Q → St ℝ ns → St ℝ ns} (hI : Lattice A I lat)
    (q : ℕ → Q) (dx : Fin 3 → ℝ) (hdiv : ∀ n, KeepsDivB A dx (I (q n))) {ng : ℕ} (hng : 4 ≤ ng) (Ds : List Dom)
    (D : Dom) (hDs : D ∈ Ds) (hD : Regular (cfg ng ns) D) (hA : ∀ C, D.Has C → HasDim A (D.gnx C))
    (hR : ∀ t, A t = true → D.bcIn t ≠ .reflect ∧ D.bcOut t ≠ .reflect)
    (o : ℕ → Fin 3 → Coord → Bool) (J : ℕ → Coord → Wk) (s : ℕ → Coord → Grid ℝ)
    (hs : IsRun I q ng (bufSize (cfg ng ns) Ds) D o J s) (Gi : Grid ℝ)
    (hst : Start (cfg ng ns) (bufSize (cfg ng ns) Ds) D Gi (s 0)) (n : ℕ) (C : Coord) (hC : D.Has C) (y : Idx)
    (hy : ∀ t, lo (cfg ng ns) (D.gnx C) t ≤ y t ∧ y t ≤ hi (cfg ng ns) (D.gnx C) t) :
    gdivB dx (s n C) y = gdivB dx (s 0 C) y := by
  have hok := hD.ok hDs
  obtain ⟨G, o0, o', J', e0, hG, hGn, hsn, hE⟩ := companion hI q hng Ds D hDs hD ⟨C, hC⟩ hA o J s hs Gi hst
  have hdim := dims_tot hok hC
  have hA' := hasDim_tot hok hC (hA C hC)
  have hcg : 1 ≤ (cfg ng ns).ng := by show 1 ≤ ng; omega
  have key : ∀ n, gdivB dx (s n C) y = gdivB dx (G n) (gl D C y) := by
    intro n
    have e : ∀ m z, (s n C).Bi m z = (G n).Bi m (gl D C z) ∨ ¬ Active (cfg ng ns) (D.gnx C) (.face m) z := by
      intro m z
      by_cases hz : Active (cfg ng ns) (D.gnx C) (.face m) z
      · exact .inl (hE n C hC (.face m) rfl z (active_stored (hA C hC) hcg hz))
      · exact .inr hz
    have gn : ∀ t, gl D C (next y t) = next (gl D C y) t := by
      intro t; funext t'; unfold gl next; split_ifs <;> ring
    refine gdivB_congr (hA C hC) (hsn n C hC) dx hy ?_ (fun m => e m y) (fun m => by rw [← gn]; exact e m (next y m))
    intro t; rw [hGn]; exact (gnx_tot hok hC t).1
  rw [key n, key 0]
  have hz : ∀ t, lo (cfg ng ns) (tot D) t ≤ gl D C y t ∧ gl D C y t ≤ hi (cfg ng ns) (tot D) t := by
    have h1 : Active (cfg ng ns) (D.gnx C) (.cell .d) y := by intro t; rw [extra_cell, add_zero]; exact hy t
    have h2 : Active (cfg ng ns) (tot D) (.cell .d) (gl D C y) := active_iff.1 (inR_gl hok hC (active_iff.2 h1))
    intro t
    have := h2 t
    rwa [extra_cell, add_zero] at this
  generalize gl D C y = z at hz
  induction n with
  | zero => rfl
  | succ n ih =>
    rw [← ih]
    have hin : ∀ t, D.bcIn t ≠ .later := hD.kin
    have hout : ∀ t, D.bcOut t ≠ .later := hD.kout
    set g := advance I (q n) ng (J' n) (G n) with hg
    have gnx : g.nx = tot D := hGn n
    obtain ⟨g', e, _, hf⟩ := active_unchanged (cfg ng ns) D.bcIn D.bcOut g (by rw [gnx]; exact hdim) hin hout 0 (o' n)
    have eD : oneGrid g.nx D.bcIn D.bcOut = single D := by rw [gnx]; rfl
    rw [eD] at e
    have r := hG n (fun _ => 0) (has_single D)
    dsimp only at r
    rw [← hg, e] at r
    injection r with r
    have hB : ∀ m x, (G (n+1)).Bi m x = g.Bi m x ∨ ¬ Active (cfg ng ns) (tot D) (.face m) x := by
      intro m x
      by_cases hx : Active (cfg ng ns) (tot D) (.face m) x
      swap
      · exact .inr hx
      refine .inl ?_
      rw [← r, hf rfl m x (by rw [gnx]; exact hx), if_neg]
      rintro ⟨h1, h⟩
      rw [gnx] at h1
      have := hR m ((hA' m).1.1 h1)
      rcases h with ⟨h, _⟩ | ⟨h, _⟩
      · exact this.1 h
      · exact this.2 h
    have e1 : gdivB dx (G (n+1)) z = gdivB dx g z :=
      gdivB_congr hA' (hGn (n+1)) dx hz (fun t => by rw [gnx]) (fun m => hB m z) (fun m => hB m (next z m))
    rw [e1, gdivB_eq (ns := ns) dx (A := A) (by rw [gnx]; exact hA'), gdivB_eq (ns := ns) dx (A := A) (by rw [hGn]; exact hA'), hg]
    unfold advance
    rw [toSt_ofSt]
    have z0 := hz 0; have z1 := hz 1; have z2 := hz 2
    have hro := rngOk (ns := ns) hng (nx := (G n).nx) (A := A) (by rw [hGn]; exact hA')
    refine hdiv n _ _ _ _ _ _ hro ?_ ?_ ?_ ?_ ?_ ?_
    all_goals rw [hGn]
    · exact z2.1
    · exact z2.2
    · exact z1.1
    · exact z1.2
    · exact z0.1
    · exact z0.2

end Athena.Gen
