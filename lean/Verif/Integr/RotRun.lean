import Verif.Integr.Sym
import Verif.Integr.Rot
import Verif.Integr.Ex

/-!
# Runs do not depend on the names of the axes (C64)
-/

namespace Athena.Gen
open Athena.Bvals hiding Rng
open Athena.Vl3

variable {ns : ℕ}

/-- The field of the old axes that is called `f` in the new axes: component `n` is the old component `n + 1` (cyclically). -/
def oldFld : Fld → Fld
  | .cell (.M n) => .cell (.M (n + 1))
  | .cell (.Bc n) => .cell (.Bc (n + 1))
  | .cell v => .cell v
  | .face n => .face (n + 1)

/-- The indices in the old axes of the zone with indices `y` in the new axes: `y n` counts along the old direction `n + 1`. -/
def oldIdx (y : Idx) : Idx := fun t => y (t - 1)

/-- The Domain `D'` is `D` in the new axes: sizes and boundary conditions. -/
structure SameDomain (D D' : Dom) : Prop where
  size : ∀ t, tot D' t = tot D (t + 1)
  bcIn : ∀ t, D'.bcIn t = D.bcIn (t + 1)
  bcOut : ∀ t, D'.bcOut t = D.bcOut (t + 1)

theorem pred_succ3 : ∀ t : Fin 3, t - 1 + 1 = t := by decide
theorem succ_inj3 : ∀ n t : Fin 3, n + 1 = t + 1 ↔ n = t := by decide

theorem face_rot (f : Fld) (t : Fin 3) : (oldFld f = .face (t + 1)) ↔ f = .face t := by
  cases f with
  | cell v => cases v <;> simp [oldFld]
  | face n => simp [oldFld, succ_inj3]

theorem oldIdx_succ (y : Idx) (t : Fin 3) : oldIdx y (t + 1) = y t := by
  rcases three t with rfl | rfl | rfl <;> rfl

theorem oldFld_in {ng : ℕ} {f : Fld} (h : f.In (cfg ng ns)) : (oldFld f).In (cfg ng ns) := by
  cases f with
  | cell v =>
    cases v with
    | M n => rcases three n with rfl | rfl | rfl <;> exact List.mem_of_elem_eq_true (by simp [oldFld, vars, cfg])
    | Bc n => rcases three n with rfl | rfl | rfl <;> exact List.mem_of_elem_eq_true (by simp [oldFld, vars, cfg])
    | _ => exact h
  | face n => exact h

/-- Reading the relabelled contents. -/
theorem val_rot {ng : ℕ} (g g' : Grid ℝ) (L : St ℝ ns) {f : Fld} (hf : f.In (cfg ng ns)) (y : Idx) :
    f.val (ofSt g' L.rot) y = (oldFld f).val (ofSt g L) (oldIdx y) := by
  cases f with
  | cell v =>
    cases v with
    | s n =>
      have hn : n < ns := by simpa [Fld.In, vars, cfg] using hf
      simp only [Fld.val, oldFld, ofSt, St.rot, rotU, Cons.get, dif_pos hn, oldIdx]; rfl
    | M n => rcases three n with rfl | rfl | rfl <;> rfl
    | Bc n => rcases three n with rfl | rfl | rfl <;> rfl
    | _ => rfl
  | face n => rcases three n with rfl | rfl | rfl <;> rfl

theorem extra_rot {nx nx' : Fin 3 → ℕ} (h : ∀ t, nx' t = nx (t + 1)) (f : Fld) (t : Fin 3) :
    extra nx (oldFld f) (t + 1) = extra nx' f t := by
  unfold extra
  rw [h]
  simp only [face_rot]

theorem all_succ {P : Fin 3 → Prop} : (∀ t, P t) ↔ ∀ t, P (t + 1) := by
  constructor
  · intro h t; exact h _
  · intro h t
    have := h (t - 1)
    rwa [pred_succ3] at this

theorem stored_rot {c : Cfg} {nx nx' : Fin 3 → ℕ} (h : ∀ t, nx' t = nx (t + 1)) (f : Fld) (y : Idx) :
    Stored c nx (oldFld f) (oldIdx y) ↔ Stored c nx' f y := by
  unfold Stored
  rw [all_succ]
  simp only [extra_rot h, oldIdx_succ, size, h]

theorem active_rot {c : Cfg} {nx nx' : Fin 3 → ℕ} (h : ∀ t, nx' t = nx (t + 1)) (f : Fld) (y : Idx) :
    Active c nx (oldFld f) (oldIdx y) ↔ Active c nx' f y := by
  unfold Active
  rw [all_succ]
  simp only [extra_rot h, oldIdx_succ, lo, hi, h]

theorem odd_rot (k : Bvals.Kind) (t : Fin 3) (f : Fld) : Bvals.Odd k (t + 1) (oldFld f) ↔ Bvals.Odd k t f := by
  unfold Bvals.Odd
  have e1 : (oldFld f = .cell (.M (t + 1))) ↔ f = .cell (.M t) := by
    cases f with
    | cell v => cases v <;> simp [oldFld, succ_inj3]
    | face n => simp [oldFld]
  have e2 : ∀ t, (oldFld f = .cell (.Bc (t + 1))) ↔ f = .cell (.Bc t) := by
    intro t
    cases f with
    | cell v => cases v <;> simp [oldFld, succ_inj3]
    | face n => simp [oldFld]
  have e3 : (∃ n, n ≠ t + 1 ∧ (oldFld f = .cell (.Bc n) ∨ oldFld f = .face n)) ↔ ∃ n, n ≠ t ∧ (f = .cell (.Bc n) ∨ f = .face n) := by
    constructor
    · rintro ⟨n, h1, h2⟩
      rw [← pred_succ3 n, e2, face_rot] at h2
      refine ⟨n - 1, fun h => h1 ?_, h2⟩
      rw [← h, pred_succ3]
    · rintro ⟨n, h1, h2⟩
      rw [← e2, ← face_rot] at h2
      exact ⟨n + 1, fun h => h1 ((succ_inj3 _ _).1 h), h2⟩
  rw [e1, e2, face_rot, e3]

theorem minus_rot {c : Cfg} {nx nx' : Fin 3 → ℕ} (h : ∀ t, nx' t = nx (t + 1)) {ki ko ki' ko' : Fin 3 → Bvals.Kind}
    (h1 : ∀ t, ki' t = ki (t + 1)) (h2 : ∀ t, ko' t = ko (t + 1)) (f : Fld) (y : Idx) (t : Fin 3) :
    Minus c ki ko nx (oldFld f) (oldIdx y) (t + 1) ↔ Minus c ki' ko' nx' f y t := by
  unfold Minus
  rw [odd_rot, odd_rot, extra_rot h, oldIdx_succ, h1, h2]
  simp only [lo, hi, h]

theorem wall_rot {c : Cfg} {nx nx' : Fin 3 → ℕ} (h : ∀ t, nx' t = nx (t + 1)) {ki ko ki' ko' : Fin 3 → Bvals.Kind}
    (h1 : ∀ t, ki' t = ki (t + 1)) (h2 : ∀ t, ko' t = ko (t + 1)) (f : Fld) (y : Idx) (t : Fin 3) :
    OnWall c ki ko nx (oldFld f) (oldIdx y) (t + 1) ↔ OnWall c ki' ko' nx' f y t := by
  unfold OnWall
  rw [oldIdx_succ, h1, h2]
  simp only [lo, hi, h]
  rw [face_rot]

/-- The boundary conditions do not depend on the names of the axes. -/
theorem image_rot {c : Cfg} {G G' : Grid ℝ} (h : ∀ t, G'.nx t = G.nx (t + 1)) {ki ko ki' ko' : Fin 3 → Bvals.Kind}
    (h1 : ∀ t, ki' t = ki (t + 1)) (h2 : ∀ t, ko' t = ko (t + 1)) (f : Fld) (y : Idx)
    (hv : f.val G' (fun t => imgJ (ki' t) (ko' t) (lo c G'.nx t) (hi c G'.nx t) (extra G'.nx f t) (G'.nx t) (y t)) =
      (oldFld f).val G (oldIdx (fun t => imgJ (ki' t) (ko' t) (lo c G'.nx t) (hi c G'.nx t) (extra G'.nx f t) (G'.nx t) (y t)))) :
    image c ki' ko' G' f y = image c ki ko G (oldFld f) (oldIdx y) := by
  unfold image
  dsimp only
  have e : (∃ t, OnWall c ki' ko' G'.nx f y t) ↔ ∃ t, OnWall c ki ko G.nx (oldFld f) (oldIdx y) t := by
    constructor
    · rintro ⟨t, ht⟩; exact ⟨t + 1, (wall_rot h h1 h2 f y t).2 ht⟩
    · rintro ⟨t, ht⟩
      rw [← pred_succ3 t] at ht
      exact ⟨t - 1, (wall_rot h h1 h2 f y _).1 ht⟩
  have ei : (oldIdx (fun t => imgJ (ki' t) (ko' t) (lo c G'.nx t) (hi c G'.nx t) (extra G'.nx f t) (G'.nx t) (y t))) =
      fun t => imgJ (ki t) (ko t) (lo c G.nx t) (hi c G.nx t) (extra G.nx (oldFld f) t) (G.nx t) (oldIdx y t) := by
    funext t
    have ht : t = t - 1 + 1 := (pred_succ3 t).symm
    rw [ht, oldIdx_succ, oldIdx_succ, extra_rot h, h1, h2]
    simp only [lo, hi, h]
  rw [hv, ei]
  have m := fun t => minus_rot (c := c) h h1 h2 f y t
  have m0 := m 0; have m1 := m 1; have m2 := m 2
  rw [show (0 : Fin 3) + 1 = 1 from rfl] at m0
  rw [show (1 : Fin 3) + 1 = 2 from rfl] at m1
  rw [show (2 : Fin 3) + 1 = 0 from rfl] at m2
  by_cases w : ∃ t, OnWall c ki' ko' G'.nx f y t
  · rw [if_pos w, if_pos (e.1 w)]
  rw [if_neg w, if_neg (fun h => w (e.2 h))]
  by_cases a0 : Minus c ki' ko' G'.nx f y 0 <;> by_cases a1 : Minus c ki' ko' G'.nx f y 1 <;>
    by_cases a2 : Minus c ki' ko' G'.nx f y 2 <;> simp only [a0, a1, a2, m0, m1, m2, if_true, if_false, neg_neg]

/-- Related on the active zones. -/
def RotA (ng ns : ℕ) (G G' : Grid ℝ) : Prop :=
  ∀ f : Fld, f.In (cfg ng ns) → ∀ y, Active (cfg ng ns) G'.nx f y → f.val G' y = (oldFld f).val G (oldIdx y)
/-- Related everywhere. -/
def RotS (ng ns : ℕ) (G G' : Grid ℝ) : Prop :=
  ∀ f : Fld, f.In (cfg ng ns) → ∀ y, Stored (cfg ng ns) G'.nx f y → f.val G' y = (oldFld f).val G (oldIdx y)

theorem latt_rot {M : Funs ℝ ns} (hM : M.Isotropic) (K : Kind) (q : Step ℝ) (L : St ℝ ns) :
    latt M K .d3 q.rot L.rot = (latt M K .d3 q L).rot := by
  cases K
  · exact latV3_rot hM q L
  · exact latC3_rot hM q L

theorem advance_rot {M : Funs ℝ ns} (hL : M.Local) (hM : M.Isotropic) (K : Kind) (q : Step ℝ) {ng : ℕ} (hng : 4 ≤ ng) (J J' : Works ℝ ns)
    {G G' : Grid ℝ} (hA : HasDim (dims .d3) G.nx) (h : ∀ t, G'.nx t = G.nx (t + 1)) (hs : RotS ng ns G G') :
    RotA ng ns (advance (integ M K .d3) q ng J G) (advance (integ M K .d3) q.rot ng J' G') := by
  have hA' : HasDim (dims .d3) G'.nx := fun t => by rw [h]; exact hA (t + 1)
  have hI := integ_lattice M hL K .d3
  intro f hf y hy
  change Active (cfg ng ns) G'.nx f y at hy
  rw [hI.active q.rot ng J' G' ((toSt ns G).rot) hng hA' (fun f hf y hy => by
      rw [hs f hf y hy, val_rot G _ _ hf, ofSt_toSt _ _ (oldFld_in hf)]) f hf y hy,
    latt_rot hM, val_rot G _ _ hf]
  exact (hI.active q ng J G (toSt ns G) hng hA (fun f hf y hy => (ofSt_toSt _ _ hf _).symm) _ (oldFld_in hf) _ ((active_rot h f y).2 hy)).symm

/-- **C64.** Two three-dimensional runs whose initial data, zone sizes and boundary conditions differ only by the names of the axes
(the old x2, x3, x1 are the new x1, x2, x3): in exact arithmetic every zone and face, ghost zones included, of every Grid of the one
holds after any number of cycles the value that the corresponding zone or face holds in the other.  The two runs may be divided
into Grids differently. -/
theorem run_rotated (M : Funs ℝ ns) (hL : M.Local) (hM : M.Isotropic) (K : Kind) (q : ℕ → Step ℝ) {ng : ℕ} (hng : 4 ≤ ng)
    (Ds Ds' : List Dom) (D D' : Dom) (hDs : D ∈ Ds) (hDs' : D' ∈ Ds') (hD : Regular (cfg ng ns) D) (hD' : Regular (cfg ng ns) D')
    (hdim : ∀ t, 1 < tot D t) (hDD : SameDomain D D')
    (o o' : ℕ → Fin 3 → Coord → Bool) (J J' : ℕ → Coord → Works ℝ ns) (s s' : ℕ → Coord → Grid ℝ)
    (hs : IsRun (integ M K .d3) q ng (bufSize (cfg ng ns) Ds) D o J s)
    (hs' : IsRun (integ M K .d3) (fun n => (q n).rot) ng (bufSize (cfg ng ns) Ds') D' o' J' s')
    (Gi Gi' : Grid ℝ) (hst : Start (cfg ng ns) (bufSize (cfg ng ns) Ds) D Gi (s 0))
    (hst' : Start (cfg ng ns) (bufSize (cfg ng ns) Ds') D' Gi' (s' 0))
    (h0 : ∀ f : Fld, f.In (cfg ng ns) → ∀ y, Active (cfg ng ns) (tot D') f y → f.val Gi' y = (oldFld f).val Gi (oldIdx y))
    (n : ℕ) (C C' : Coord) (hC : D.Has C) (hC' : D'.Has C') (f : Fld) (hf : f.In (cfg ng ns)) (y y' : Idx)
    (hy : Stored (cfg ng ns) (D.gnx C) (oldFld f) y) (hy' : Stored (cfg ng ns) (D'.gnx C') f y') (hyy : gl D C y = oldIdx (gl D' C' y')) :
    f.val (s' n C') y' = (oldFld f).val (s n C) y := by
  have init : ∀ {D : Dom}, (∀ t, 1 < tot D t) → integrateInit K (tot D) false = .ok (some .d3) := by
    intro D hdim
    simp [integrateInit, hdim 0, hdim 1, hdim 2]
  have hdim' : ∀ t, 1 < tot D' t := fun t => by rw [hDD.size]; exact hdim _
  obtain ⟨G, G', hR, hE, hE'⟩ := runs_related (integ_lattice M hL K .d3) (integ_lattice M hL K .d3) q (fun n => (q n).rot) hng Ds Ds' D D' hDs hDs'
    hD hD' ⟨C, hC⟩ ⟨C', hC'⟩ (init_hasDim (init hdim) hDs hD (fun _ => Iff.rfl)) (init_hasDim (init hdim') hDs' hD' (fun _ => Iff.rfl))
    (RotA ng ns) (RotS ng ns) (by
      intro G G' H H' hG hG' hA hF hF' f hf y hy
      have hn : ∀ t, G'.nx t = G.nx (t + 1) := fun t => by rw [hG, hG']; exact hDD.size t
      rw [hF'.1] at hy
      rw [hF'.2 f hf y hy, hF.2 _ (oldFld_in hf) _ ((stored_rot hn f y).2 hy)]
      refine image_rot hn hDD.bcIn hDD.bcOut f y (hA f hf _ ?_)
      exact image_active (by rw [hG']; exact dims_tot (hD'.ok hDs') hC') hD'.kin hD'.kout f y hy)
    (by
      intro n J J' G G' hG hG' hS
      refine advance_rot hL hM K (q n) hng J J' ?_ ?_ hS
      · rw [hG]; exact hasDim_tot (hD.ok hDs) hC (init_hasDim (init hdim) hDs hD (fun _ => Iff.rfl) C hC)
      · intro t; rw [hG, hG']; exact hDD.size t)
    o o' J J' s s' hs hs' Gi Gi' hst hst' (by
      intro f hf y hy
      rw [hst'.1] at hy
      exact h0 f hf y hy)
  rw [hE' n C' hC' f hf y' hy', hE n C hC _ (oldFld_in hf) y hy, hyy]
  refine (hR n).2.2 f hf _ ?_
  rw [(hR n).2.1]
  exact stored_iff.1 (inR_gl (hD'.ok hDs') hC' (stored_iff.2 hy'))

/-! ## An instance -/

theorem exF_isotropic : exF.Isotropic := ⟨fun _ _ _ _ _ _ => rfl, fun _ => rfl⟩

/-- `exD .d3` in the new axes: 4 by 4 by 9 zones, two Grids in x3. -/
def exDr : Dom where
  NG := fun t => if t = 2 then 2 else 1
  nx := fun t i => if t = 2 then (if i = 0 then 5 else 4) else 4
  bcIn := fun _ => .periodic
  bcOut := fun _ => .periodic

theorem exDr_regular : Regular (cfg 4 1) exDr where
  dims C hC := by
    have : ∀ t, exDr.gnx C t = 4 ∨ exDr.gnx C t = 5 := by
      intro t; simp only [Dom.gnx, exDr]; split_ifs <;> simp
    exact ⟨by decide, fun t => by have := this t; show _ ∨ _ ∧ 4 ≤ _; omega, fun t d _ _ => by have := this t; omega⟩
  split t hN i hi := by simp only [exDr]; split_ifs <;> omega
  kin t := by simp [exDr]
  kout t := by simp [exDr]
  per t hN := ⟨fun _ => rfl, fun _ => rfl⟩

theorem ex_same : SameDomain (exD .d3) exDr :=
  ⟨fun t => by rcases three t with rfl | rfl | rfl <;> decide, fun _ => rfl, fun _ => rfl⟩

/-- Two runs that satisfy the hypotheses of `run_rotated`, with initial data that differ from zone to zone, on different numbers of Grids in
each direction; so the conclusion holds for them. -/
example (K : Kind) : ∃ (s s' : ℕ → Coord → Grid ℝ) (Gi' : Grid ℝ) (J : ℕ → Coord → Works ℝ 1),
    IsRun (integ exF K .d3) (fun _ => ⟨0.1, 1, 2, 3⟩) 4 (bufSize (cfg 4 1) [exD .d3]) (exD .d3) (fun _ _ _ => false) J s ∧
    IsRun (integ exF K .d3) (fun _ => ⟨0.1, 2, 3, 1⟩) 4 (bufSize (cfg 4 1) [exDr]) exDr (fun _ _ _ => true) J s' ∧
    Start (cfg 4 1) (bufSize (cfg 4 1) [exD .d3]) (exD .d3) (exG2 .d3) (s 0) ∧
    Start (cfg 4 1) (bufSize (cfg 4 1) [exDr]) exDr Gi' (s' 0) ∧
    (∀ f : Fld, f.In (cfg 4 1) → ∀ y, Active (cfg 4 1) (tot exDr) f y → f.val Gi' y = (oldFld f).val (exG2 .d3) (oldIdx y)) ∧
    ∀ n, (s' n (fun _ => 0)).U (mkIdx 5 6 7) (.M 0) = (s n (fun _ => 0)).U (mkIdx 7 5 6) (.M 1) := by
  have hR := exD_regular .d3
  have hm : exD .d3 ∈ [exD .d3] := List.mem_singleton.2 rfl
  have hm' : exDr ∈ [exDr] := List.mem_singleton.2 rfl
  have c0 : (exD .d3).Has (fun _ => 0) := by intro t; simp only [exD]; split_ifs <;> omega
  have c0' : exDr.Has (fun _ => 0) := by intro t; simp only [exDr]; split_ifs <;> omega
  let J : ℕ → Coord → Works ℝ 1 := fun _ _ => default
  let Gi' : Grid ℝ := ⟨tot exDr, fun y v => match oldFld (.cell v) with | .cell w => (exG2 .d3).U (oldIdx y) w | .face _ => 0,
    fun n y => (exG2 .d3).Bi (n + 1) (oldIdx y)⟩
  have h0 : ∀ f : Fld, f.In (cfg 4 1) → ∀ y, Active (cfg 4 1) (tot exDr) f y → f.val Gi' y = (oldFld f).val (exG2 .d3) (oldIdx y) := by
    intro f _ y _
    cases f with
    | cell v => cases v <;> rfl
    | face n => rfl
  obtain ⟨s, hst, hr⟩ := runs_exist (integ exF K .d3) (fun _ => ⟨0.1, 1, 2, 3⟩) hm hR ⟨_, c0⟩ (fun _ _ _ => false) J (exG2 .d3) rfl
  obtain ⟨s', hst', hr'⟩ := runs_exist (integ exF K .d3) (fun _ => ⟨0.1, 2, 3, 1⟩) hm' exDr_regular ⟨_, c0'⟩ (fun _ _ _ => true) J Gi' rfl
  refine ⟨s, s', Gi', J, hr, hr', hst, hst', h0, fun n => ?_⟩
  have := run_rotated exF exF_local exF_isotropic K (fun _ => ⟨0.1, 1, 2, 3⟩) (by omega) _ _ _ _ hm hm' hR exDr_regular
    (fun t => by rw [exD_tot]; rcases three t with rfl | rfl | rfl <;> decide) ex_same _ _ J J s s' hr hr' _ _ hst hst' h0 n
    (fun _ => 0) (fun _ => 0) c0 c0' (.cell (.M 0)) (by simp [Fld.In, vars]) (mkIdx 7 5 6) (mkIdx 5 6 7)
    (by intro t; rcases three t with rfl | rfl | rfl <;> decide) (by intro t; rcases three t with rfl | rfl | rfl <;> decide)
    (by funext t; rcases three t with rfl | rfl | rfl <;> decide)
  exact this

end Athena.Gen
