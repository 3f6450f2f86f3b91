import Verif.Integr.Mirror2
import Verif.Integr.RotRun

/-!
# A run on mirrored data is the mirror image of the run (C67)
-/

namespace Athena.Gen
open Athena.Bvals hiding Rng
open Athena.Vl3

variable {ns : ℕ}

/-! ## Specification -/

/-- What reversing direction `t` does to the values of a field: the momentum and the magnetic field along `t` change sign. -/
noncomputable def mirSgn (t : Fin 3) (f : Fld) : ℝ := if f = .cell (.M t) ∨ f = .cell (.Bc t) ∨ f = .face t then -1 else 1

/-- The zone (face) that direction `t` reversed puts in the place of zone (face) `y`: the active ones, `lo … hi` (`hi + 1`), in
the opposite order. -/
def mirIdx (c : Cfg) (nx : Fin 3 → ℕ) (t : Fin 3) (f : Fld) (y : Idx) : Idx :=
  fun u => if u = t then lo c nx t + hi c nx t + extra nx f t - y t else y u

/-- The Domain `D'` is `D` with direction `t` reversed: sizes and boundary conditions. -/
structure MirrorDomain (t : Fin 3) (D D' : Dom) : Prop where
  size : tot D' = tot D
  bcIn : ∀ u, D'.bcIn u = if u = t then D.bcOut t else D.bcIn u
  bcOut : ∀ u, D'.bcOut u = if u = t then D.bcIn t else D.bcOut u

/-! ## The lattice -/

/-- A lattice of a run with dimensions `w`, direction `t` reversed. -/
def _root_.Athena.Vl3.St.mir (w : Which) (t : Fin 3) (N : ℤ) (L : St ℝ ns) : St ℝ ns :=
  if t = 0 then L.mir1 N
  else if t = 1 then (if dims w 1 = true then L.mir2 N else L.flip2)
  else (if dims w 2 = true then L.mir3 N else L.flip3)

theorem latt_mir {M : Funs ℝ ns} (hM : M.Mirror) (K : Kind) (w : Which) (hI : w = .d3 → M.Isotropic) (q : Step ℝ) (t : Fin 3) (N : ℤ) (L : St ℝ ns) :
    latt M K w q (L.mir w t N) = (latt M K w q L).mir w t N := by
  cases w <;> rcases three t with rfl | rfl | rfl
  · exact latt1_m1 hM q L N K
  · exact latt1_f2 hM q L K
  · exact latt1_f3 hM q L K
  · exact latt2_m1 hM q N K L
  · exact latt2_m2 hM q N K L
  · exact latt2_f3 hM q K L
  · exact latt3_m1 hM K q N L
  · exact latt3_m2 (hI rfl) hM K q N L
  · exact latt3_m3 (hI rfl) hM K q N L

theorem mirIdx_eq (c : Cfg) (nx : Fin 3 → ℕ) (t : Fin 3) (f : Fld) (y : Idx) :
    mirIdx c nx t f y t = lo c nx t + hi c nx t + extra nx f t - y t := by simp [mirIdx]
theorem mirIdx_ne (c : Cfg) (nx : Fin 3 → ℕ) {t u : Fin 3} (h : u ≠ t) (f : Fld) (y : Idx) : mirIdx c nx t f y u = y u := by
  simp [mirIdx, h]

/-- The index in direction `t` of a lattice reversed. -/
def latIdx (t : Fin 3) (N : ℤ) (f : Fld) (y : Idx) : Idx := fun u => if u = t then N - 1 + (if f = .face t then 1 else 0) - y t else y u

theorem val_mir1 {ng : ℕ} (g g' : Grid ℝ) (L : St ℝ ns) (N : ℤ) {f : Fld} (hf : f.In (cfg ng ns)) (y : Idx) :
    f.val (ofSt g' (L.mir1 N)) y = mirSgn 0 f * f.val (ofSt g L) (latIdx 0 N f y) := by
  cases f with
  | cell v =>
    cases v with
    | s n =>
      have hn : n < ns := by simpa [Fld.In, vars, cfg] using hf
      simp [Fld.val, ofSt, St.mir1, Cons.m1, Cons.get, hn, mirSgn, latIdx]
    | M n => rcases three n with rfl | rfl | rfl <;> simp [Fld.val, ofSt, St.mir1, Cons.m1, Cons.get, mirSgn, latIdx]
    | Bc n => rcases three n with rfl | rfl | rfl <;> simp [Fld.val, ofSt, St.mir1, Cons.m1, Cons.get, mirSgn, latIdx]
    | _ => simp [Fld.val, ofSt, St.mir1, Cons.m1, Cons.get, mirSgn, latIdx]
  | face n => rcases three n with rfl | rfl | rfl <;> simp [Fld.val, ofSt, St.mir1, mirSgn, latIdx]
theorem val_mir2 {ng : ℕ} (g g' : Grid ℝ) (L : St ℝ ns) (N : ℤ) {f : Fld} (hf : f.In (cfg ng ns)) (y : Idx) :
    f.val (ofSt g' (L.mir2 N)) y = mirSgn 1 f * f.val (ofSt g L) (latIdx 1 N f y) := by
  cases f with
  | cell v =>
    cases v with
    | s n =>
      have hn : n < ns := by simpa [Fld.In, vars, cfg] using hf
      simp [Fld.val, ofSt, St.mir2, Cons.m2, Cons.get, hn, mirSgn, latIdx]
    | M n => rcases three n with rfl | rfl | rfl <;> simp [Fld.val, ofSt, St.mir2, Cons.m2, Cons.get, mirSgn, latIdx]
    | Bc n => rcases three n with rfl | rfl | rfl <;> simp [Fld.val, ofSt, St.mir2, Cons.m2, Cons.get, mirSgn, latIdx]
    | _ => simp [Fld.val, ofSt, St.mir2, Cons.m2, Cons.get, mirSgn, latIdx]
  | face n => rcases three n with rfl | rfl | rfl <;> simp [Fld.val, ofSt, St.mir2, mirSgn, latIdx]
theorem val_mir3 {ng : ℕ} (g g' : Grid ℝ) (L : St ℝ ns) (N : ℤ) {f : Fld} (hf : f.In (cfg ng ns)) (y : Idx) :
    f.val (ofSt g' (L.mir3 N)) y = mirSgn 2 f * f.val (ofSt g L) (latIdx 2 N f y) := by
  cases f with
  | cell v =>
    cases v with
    | s n =>
      have hn : n < ns := by simpa [Fld.In, vars, cfg] using hf
      simp [Fld.val, ofSt, St.mir3, Cons.m3, Cons.get, hn, mirSgn, latIdx]
    | M n => rcases three n with rfl | rfl | rfl <;> simp [Fld.val, ofSt, St.mir3, Cons.m3, Cons.get, mirSgn, latIdx]
    | Bc n => rcases three n with rfl | rfl | rfl <;> simp [Fld.val, ofSt, St.mir3, Cons.m3, Cons.get, mirSgn, latIdx]
    | _ => simp [Fld.val, ofSt, St.mir3, Cons.m3, Cons.get, mirSgn, latIdx]
  | face n => rcases three n with rfl | rfl | rfl <;> simp [Fld.val, ofSt, St.mir3, mirSgn, latIdx]
theorem val_flip2 {ng : ℕ} (g g' : Grid ℝ) (L : St ℝ ns) {f : Fld} (hf : f.In (cfg ng ns)) (y : Idx) :
    f.val (ofSt g' (L.flip2)) y = mirSgn 1 f * f.val (ofSt g L) y := by
  cases f with
  | cell v =>
    cases v with
    | s n =>
      have hn : n < ns := by simpa [Fld.In, vars, cfg] using hf
      simp [Fld.val, ofSt, St.flip2, Cons.m2, Cons.get, hn, mirSgn]
    | M n => rcases three n with rfl | rfl | rfl <;> simp [Fld.val, ofSt, St.flip2, Cons.m2, Cons.get, mirSgn]
    | Bc n => rcases three n with rfl | rfl | rfl <;> simp [Fld.val, ofSt, St.flip2, Cons.m2, Cons.get, mirSgn]
    | _ => simp [Fld.val, ofSt, St.flip2, Cons.m2, Cons.get, mirSgn]
  | face n => rcases three n with rfl | rfl | rfl <;> simp [Fld.val, ofSt, St.flip2, mirSgn]
theorem val_flip3 {ng : ℕ} (g g' : Grid ℝ) (L : St ℝ ns) {f : Fld} (hf : f.In (cfg ng ns)) (y : Idx) :
    f.val (ofSt g' (L.flip3)) y = mirSgn 2 f * f.val (ofSt g L) y := by
  cases f with
  | cell v =>
    cases v with
    | s n =>
      have hn : n < ns := by simpa [Fld.In, vars, cfg] using hf
      simp [Fld.val, ofSt, St.flip3, Cons.m3, Cons.get, hn, mirSgn]
    | M n => rcases three n with rfl | rfl | rfl <;> simp [Fld.val, ofSt, St.flip3, Cons.m3, Cons.get, mirSgn]
    | Bc n => rcases three n with rfl | rfl | rfl <;> simp [Fld.val, ofSt, St.flip3, Cons.m3, Cons.get, mirSgn]
    | _ => simp [Fld.val, ofSt, St.flip3, Cons.m3, Cons.get, mirSgn]
  | face n => rcases three n with rfl | rfl | rfl <;> simp [Fld.val, ofSt, St.flip3, mirSgn]

/-- Reading the mirrored contents. -/
theorem val_mir {ng : ℕ} {w : Which} {nx : Fin 3 → ℕ} (hd : HasDim (dims w) nx) (g g' : Grid ℝ) (L : St ℝ ns) {f : Fld} (hf : f.In (cfg ng ns))
    (t : Fin 3) (y : Idx) (hy : Stored (cfg ng ns) nx f y) :
    f.val (ofSt g' (L.mir w t (lo (cfg ng ns) nx t + hi (cfg ng ns) nx t + 1))) y =
      mirSgn t f * f.val (ofSt g L) (mirIdx (cfg ng ns) nx t f y) := by
  have hi0 : dims w t = false → mirIdx (cfg ng ns) nx t f y = y := by
    intro h
    have h1 : nx t = 1 := (hd t).2 h
    have := hy t
    simp only [size, extra, h1] at this
    simp at this
    funext u
    by_cases hu : u = t
    · subst hu; rw [mirIdx_eq]; simp only [extra, h1, lo, hi]; simp; omega
    · exact mirIdx_ne _ _ hu _ _
  have ha : dims w t = true → latIdx t (lo (cfg ng ns) nx t + hi (cfg ng ns) nx t + 1) f y = mirIdx (cfg ng ns) nx t f y := by
    intro h
    have h1 : 1 < nx t := (hd t).1.2 h
    funext u
    by_cases hu : u = t
    · subst hu; rw [mirIdx_eq]; simp only [latIdx, extra, h1, and_true, if_true]; ring
    · rw [mirIdx_ne _ _ hu]; simp [latIdx, hu]
  rcases three t with rfl | rfl | rfl
  · rw [← ha (by cases w <;> rfl)]
    exact val_mir1 g g' L _ hf y
  · by_cases h : dims w 1 = true
    · rw [← ha h]
      simp only [St.mir, h, if_true, show (1 : Fin 3) ≠ 0 by decide, if_false]
      exact val_mir2 g g' L _ hf y
    · rw [hi0 (by simpa using h)]
      simp only [St.mir, h, if_true, show (1 : Fin 3) ≠ 0 by decide, if_false]
      exact val_flip2 g g' L hf y
  · by_cases h : dims w 2 = true
    · rw [← ha h]
      simp only [St.mir, h, if_true, show (2 : Fin 3) ≠ 0 by decide, show (2 : Fin 3) ≠ 1 by decide, if_false]
      exact val_mir3 g g' L _ hf y
    · rw [hi0 (by simpa using h)]
      simp only [St.mir, h, if_true, show (2 : Fin 3) ≠ 0 by decide, show (2 : Fin 3) ≠ 1 by decide, if_false]
      exact val_flip3 g g' L hf y

/-! ## Boundary conditions -/

theorem imgJ_mir (ki ko : Bvals.Kind) (l h b n j : ℤ) (hlh : l ≤ h + b + 1) (ho : (ki = .outflow ∨ ko = .outflow) → b = 0) :
    l + h + b - imgJ ko ki l h b n j = imgJ ki ko l h b n (l + h + b - j) := by
  unfold imgJ
  by_cases h1 : j < l
  · rw [if_pos h1, if_neg (by omega), if_pos (by omega)]
    cases ko <;> dsimp only
    any_goals omega
    have := ho (Or.inr rfl); omega
  · rw [if_neg h1]
    by_cases h2 : j > h + b
    · rw [if_pos h2, if_pos (by omega)]
      cases ki <;> dsimp only
      any_goals omega
      have := ho (Or.inl rfl); omega
    · rw [if_neg h2, if_neg (by omega), if_neg (by omega)]

theorem mir_mir (c : Cfg) (nx : Fin 3 → ℕ) (t : Fin 3) (f : Fld) (y : Idx) : mirIdx c nx t f (mirIdx c nx t f y) = y := by
  funext u
  by_cases hu : u = t
  · subst hu; rw [mirIdx_eq, mirIdx_eq]; ring
  · rw [mirIdx_ne _ _ hu, mirIdx_ne _ _ hu]

theorem lo_hi (c : Cfg) (nx : Fin 3 → ℕ) (t : Fin 3) (f : Fld) :
    lo c nx t ≤ hi c nx t + extra nx f t + 1 ∧ size c nx t - 1 + extra nx f t = lo c nx t + hi c nx t + extra nx f t := by
  unfold lo hi extra size
  split_ifs <;> omega

theorem stored_mir {c : Cfg} {nx : Fin 3 → ℕ} (t : Fin 3) {f : Fld} {y : Idx} (h : Stored c nx f y) : Stored c nx f (mirIdx c nx t f y) := by
  intro u
  have := h u
  by_cases hu : u = t
  · subst hu; rw [mirIdx_eq]; have := (lo_hi c nx u f).2; omega
  · rw [mirIdx_ne _ _ hu]; exact this

theorem active_mir {c : Cfg} {nx : Fin 3 → ℕ} (t : Fin 3) {f : Fld} {y : Idx} (h : Active c nx f y) : Active c nx f (mirIdx c nx t f y) := by
  intro u
  have := h u
  by_cases hu : u = t
  · subst hu; rw [mirIdx_eq]; omega
  · rw [mirIdx_ne _ _ hu]; exact this

theorem minus_mir {c : Cfg} {nx : Fin 3 → ℕ} {ki ko ki' ko' : Fin 3 → Bvals.Kind} {t : Fin 3}
    (h1 : ∀ u, ki' u = if u = t then ko t else ki u) (h2 : ∀ u, ko' u = if u = t then ki t else ko u) (f : Fld) (y : Idx) (u : Fin 3) :
    Minus c ki ko nx f (mirIdx c nx t f y) u ↔ Minus c ki' ko' nx f y u := by
  unfold Minus
  rw [h1, h2]
  by_cases hu : u = t
  · subst hu
    rw [mirIdx_eq, if_pos rfl, if_pos rfl, or_comm]
    have e1 : lo c nx u + hi c nx u + extra nx f u - y u > hi c nx u + extra nx f u ↔ y u < lo c nx u := by omega
    have e2 : lo c nx u + hi c nx u + extra nx f u - y u < lo c nx u ↔ y u > hi c nx u + extra nx f u := by omega
    rw [e1, e2]
  · rw [mirIdx_ne _ _ hu, if_neg hu, if_neg hu]

theorem wall_mir {c : Cfg} {nx : Fin 3 → ℕ} {ki ko ki' ko' : Fin 3 → Bvals.Kind} {t : Fin 3}
    (h1 : ∀ u, ki' u = if u = t then ko t else ki u) (h2 : ∀ u, ko' u = if u = t then ki t else ko u) (f : Fld) (y : Idx) (u : Fin 3) :
    OnWall c ki ko nx f (mirIdx c nx t f y) u ↔ OnWall c ki' ko' nx f y u := by
  unfold OnWall
  rw [h1, h2]
  by_cases hu : u = t
  · subst hu
    rw [mirIdx_eq, if_pos rfl, if_pos rfl]
    refine and_congr_right fun hf => and_congr_right fun hn => ?_
    rw [or_comm]
    have e : extra nx f u = 1 := if_pos ⟨hf, hn⟩
    rw [e]
    have e1 : lo c nx u + hi c nx u + 1 - y u = hi c nx u + 1 ↔ y u = lo c nx u := by omega
    have e2 : lo c nx u + hi c nx u + 1 - y u = lo c nx u ↔ y u = hi c nx u + 1 := by omega
    rw [e1, e2]
  · rw [mirIdx_ne _ _ hu, if_neg hu, if_neg hu]

/-- The boundary conditions do not distinguish the two ends of a direction, but for outflow and the face normal to it. -/
theorem image_mir {c : Cfg} {G G' : Grid ℝ} (h : G'.nx = G.nx) {ki ko ki' ko' : Fin 3 → Bvals.Kind} {t : Fin 3}
    (h1 : ∀ u, ki' u = if u = t then ko t else ki u) (h2 : ∀ u, ko' u = if u = t then ki t else ko u) (f : Fld) (y : Idx)
    (ho : (ki t = .outflow ∨ ko t = .outflow) → extra G.nx f t = 0)
    (hv : f.val G' (fun u => imgJ (ki' u) (ko' u) (lo c G'.nx u) (hi c G'.nx u) (extra G'.nx f u) (G'.nx u) (y u)) =
      mirSgn t f * f.val G (mirIdx c G.nx t f (fun u => imgJ (ki' u) (ko' u) (lo c G'.nx u) (hi c G'.nx u) (extra G'.nx f u) (G'.nx u) (y u)))) :
    image c ki' ko' G' f y = mirSgn t f * image c ki ko G f (mirIdx c G.nx t f y) := by
  unfold image
  dsimp only
  have ei : (mirIdx c G.nx t f (fun u => imgJ (ki' u) (ko' u) (lo c G'.nx u) (hi c G'.nx u) (extra G'.nx f u) (G'.nx u) (y u))) =
      fun u => imgJ (ki u) (ko u) (lo c G.nx u) (hi c G.nx u) (extra G.nx f u) (G.nx u) (mirIdx c G.nx t f y u) := by
    funext u
    by_cases hu : u = t
    · subst hu
      rw [mirIdx_eq, mirIdx_eq, h1, h2, if_pos rfl, if_pos rfl, h]
      exact imgJ_mir _ _ _ _ _ _ _ (lo_hi c G.nx u f).1 ho
    · rw [mirIdx_ne _ _ hu, mirIdx_ne _ _ hu, h1, h2, if_neg hu, if_neg hu, h]
  rw [hv, ei]
  have m0 := minus_mir (c := c) (nx := G.nx) h1 h2 f y 0
  have m1 := minus_mir (c := c) (nx := G.nx) h1 h2 f y 1
  have m2 := minus_mir (c := c) (nx := G.nx) h1 h2 f y 2
  have e : (∃ u, OnWall c ki ko G.nx f (mirIdx c G.nx t f y) u) ↔ ∃ u, OnWall c ki' ko' G.nx f y u :=
    exists_congr fun u => wall_mir h1 h2 f y u
  rw [h]
  by_cases w : ∃ u, OnWall c ki' ko' G.nx f y u
  · rw [if_pos w, if_pos (e.2 w), mul_zero]
  rw [if_neg w, if_neg (fun h => w (e.1 h))]
  by_cases a0 : Minus c ki' ko' G.nx f y 0 <;> by_cases a1 : Minus c ki' ko' G.nx f y 1 <;>
    by_cases a2 : Minus c ki' ko' G.nx f y 2 <;> simp only [a0, a1, a2, m0, m1, m2, if_true, if_false] <;> ring

/-! ## Runs -/

/-- Related on the active zones. -/
def MirA (ng ns : ℕ) (t : Fin 3) (G G' : Grid ℝ) : Prop :=
  ∀ f : Fld, f.In (cfg ng ns) → ∀ y, Active (cfg ng ns) G'.nx f y → f.val G' y = mirSgn t f * f.val G (mirIdx (cfg ng ns) G'.nx t f y)
/-- Related everywhere. -/
def MirS (ng ns : ℕ) (t : Fin 3) (G G' : Grid ℝ) : Prop :=
  ∀ f : Fld, f.In (cfg ng ns) → ∀ y, Stored (cfg ng ns) G'.nx f y → f.val G' y = mirSgn t f * f.val G (mirIdx (cfg ng ns) G'.nx t f y)

theorem advance_mir {M : Funs ℝ ns} (hL : M.Local) (hM : M.Mirror) (K : Kind) (w : Which) (hI : w = .d3 → M.Isotropic) (q : Step ℝ) {ng : ℕ} (hng : 4 ≤ ng)
    (J J' : Works ℝ ns) {G G' : Grid ℝ} (t : Fin 3) (hA : HasDim (dims w) G.nx) (h : G'.nx = G.nx) (hs : MirS ng ns t G G') :
    MirA ng ns t (advance (integ M K w) q ng J G) (advance (integ M K w) q ng J' G') := by
  have hA' : HasDim (dims w) G'.nx := by rw [h]; exact hA
  have hI' := integ_lattice M hL K w
  intro f hf y hy
  change Active (cfg ng ns) G'.nx f y at hy
  have hst := active_stored hA' (show 1 ≤ ng by omega) hy
  change _ = mirSgn t f * f.val (advance (integ M K w) q ng J G) (mirIdx (cfg ng ns) G'.nx t f y)
  rw [hI'.active q ng J' G' ((toSt ns G).mir w t (lo (cfg ng ns) G'.nx t + hi (cfg ng ns) G'.nx t + 1)) hng hA' (fun f hf y hy => by
      rw [hs f hf y hy, val_mir hA' G _ _ hf t y hy, ofSt_toSt _ _ hf]) f hf y hy,
    latt_mir hM K w hI, val_mir hA' G _ _ hf t y hst]
  congr 1
  exact (hI'.active q ng J G (toSt ns G) hng hA (fun f hf y hy => (ofSt_toSt _ _ hf _).symm) _ hf _ (by
    rw [← h]; exact active_mir t hy)).symm

/-- **C67.** Two runs whose initial data and boundary conditions are mirror images of each other in direction `t`: in exact arithmetic,
after any number of cycles, every zone and face, ghost zones included, of every Grid of the one holds the mirror image of what the other
holds in the mirrored place.  The direction may be one along which the Domain has a single zone.  The two runs may be divided into Grids
differently.  Partial: neither end of direction `t` is an outflow boundary (`outflow_mirror_false`), unless nothing varies along it; and the
flux function, reconstruction and conversions are such that they themselves do not distinguish left from right (`Funs.Mirror`). -/
theorem run_mirror_partial (M : Funs ℝ ns) (hL : M.Local) (hM : M.Mirror) (K : Kind) (w : Which) (hI : w = .d3 → M.Isotropic) (q : ℕ → Step ℝ)
    {ng : ℕ} (hng : 4 ≤ ng)
    (Ds Ds' : List Dom) (D D' : Dom) (hDs : D ∈ Ds) (hDs' : D' ∈ Ds') (hD : Regular (cfg ng ns) D) (hD' : Regular (cfg ng ns) D')
    (hw : integrateInit K (tot D) false = .ok (some w)) (t : Fin 3) (hDD : MirrorDomain t D D')
    (ho : 1 < tot D t → D.bcIn t ≠ .outflow ∧ D.bcOut t ≠ .outflow)
    (o o' : ℕ → Fin 3 → Coord → Bool) (J J' : ℕ → Coord → Works ℝ ns) (s s' : ℕ → Coord → Grid ℝ)
    (hs : IsRun (integ M K w) q ng (bufSize (cfg ng ns) Ds) D o J s)
    (hs' : IsRun (integ M K w) q ng (bufSize (cfg ng ns) Ds') D' o' J' s')
    (Gi Gi' : Grid ℝ) (hst : Start (cfg ng ns) (bufSize (cfg ng ns) Ds) D Gi (s 0))
    (hst' : Start (cfg ng ns) (bufSize (cfg ng ns) Ds') D' Gi' (s' 0))
    (h0 : ∀ f : Fld, f.In (cfg ng ns) → ∀ y, Active (cfg ng ns) (tot D) f y → f.val Gi' y = mirSgn t f * f.val Gi (mirIdx (cfg ng ns) (tot D) t f y))
    (n : ℕ) (C C' : Coord) (hC : D.Has C) (hC' : D'.Has C') (f : Fld) (hf : f.In (cfg ng ns)) (y y' : Idx)
    (hy : Stored (cfg ng ns) (D.gnx C) f y) (hy' : Stored (cfg ng ns) (D'.gnx C') f y')
    (hyy : gl D C y = mirIdx (cfg ng ns) (tot D) t f (gl D' C' y')) :
    f.val (s' n C') y' = mirSgn t f * f.val (s n C) y := by
  have hdD := init_hasDim hw hDs hD (fun _ => Iff.rfl)
  have hdD' := init_hasDim hw hDs' hD' (fun u => by rw [hDD.size])
  obtain ⟨G, G', hR, hE, hE'⟩ := runs_related (integ_lattice M hL K w) (integ_lattice M hL K w) q q hng Ds Ds' D D' hDs hDs'
    hD hD' ⟨C, hC⟩ ⟨C', hC'⟩ hdD hdD'
    (MirA ng ns t) (MirS ng ns t) (by
      intro G G' H H' hG hG' hA hF hF' f hf y hy
      have hn : G'.nx = G.nx := by rw [hG, hG']; exact hDD.size
      rw [hF'.1] at hy ⊢
      rw [hF'.2 f hf y hy, hF.2 _ hf _ (by rw [← hn]; exact stored_mir t hy)]
      rw [hn]
      refine image_mir hn hDD.bcIn hDD.bcOut f y ?_ ?_
      · intro h
        by_contra h3
        have h4 : 1 < tot D t := by
          rw [← hG]
          by_contra h4
          exact h3 (if_neg (fun h => h4 h.2))
        rcases h with h | h
        · exact (ho h4).1 h
        · exact (ho h4).2 h
      rw [← hn]
      refine (hA f hf _ ?_)
      exact image_active (by rw [hG']; exact dims_tot (hD'.ok hDs') hC') hD'.kin hD'.kout f y hy)
    (by
      intro n J J' G G' hG hG' hS
      refine advance_mir hL hM K w hI (q n) hng J J' t ?_ ?_ hS
      · rw [hG]; exact hasDim_tot (hD.ok hDs) hC (hdD C hC)
      · rw [hG, hG']; exact hDD.size)
    o o' J J' s s' hs hs' Gi Gi' hst hst' (by
      intro f hf y hy
      rw [hst'.1, hDD.size] at hy ⊢
      exact h0 f hf y hy)
  rw [hE' n C' hC' f hf y' hy', hE n C hC _ hf y hy, hyy, ← hDD.size, ← (hR n).2.1]
  refine (hR n).2.2 f hf _ ?_
  rw [(hR n).2.1]
  exact stored_iff.1 (inR_gl (hD'.ok hDs') hC' (stored_iff.2 hy'))

/-- **C67.** Data that are symmetric about the middle of the Domain stay so, exactly: with the same boundary condition at both ends. -/
theorem run_symmetric_partial (M : Funs ℝ ns) (hL : M.Local) (hM : M.Mirror) (K : Kind) (w : Which) (hI : w = .d3 → M.Isotropic) (q : ℕ → Step ℝ)
    {ng : ℕ} (hng : 4 ≤ ng) (Ds : List Dom) (D : Dom) (hDs : D ∈ Ds) (hD : Regular (cfg ng ns) D)
    (hw : integrateInit K (tot D) false = .ok (some w)) (t : Fin 3) (hbc : D.bcIn t = D.bcOut t) (ho : 1 < tot D t → D.bcIn t ≠ .outflow)
    (o : ℕ → Fin 3 → Coord → Bool) (J : ℕ → Coord → Works ℝ ns) (s : ℕ → Coord → Grid ℝ)
    (hs : IsRun (integ M K w) q ng (bufSize (cfg ng ns) Ds) D o J s)
    (Gi : Grid ℝ) (hst : Start (cfg ng ns) (bufSize (cfg ng ns) Ds) D Gi (s 0))
    (h0 : ∀ f : Fld, f.In (cfg ng ns) → ∀ y, Active (cfg ng ns) (tot D) f y → f.val Gi y = mirSgn t f * f.val Gi (mirIdx (cfg ng ns) (tot D) t f y))
    (n : ℕ) (C C' : Coord) (hC : D.Has C) (hC' : D.Has C') (f : Fld) (hf : f.In (cfg ng ns)) (y y' : Idx)
    (hy : Stored (cfg ng ns) (D.gnx C) f y) (hy' : Stored (cfg ng ns) (D.gnx C') f y')
    (hyy : gl D C y = mirIdx (cfg ng ns) (tot D) t f (gl D C' y')) :
    f.val (s n C') y' = mirSgn t f * f.val (s n C) y :=
  run_mirror_partial M hL hM K w hI q hng Ds Ds D D hDs hDs hD hD hw t
    ⟨rfl, fun u => by split_ifs with h; exacts [by rw [h, hbc], rfl], fun u => by split_ifs with h; exacts [by rw [h, hbc], rfl]⟩
    (fun h => ⟨ho h, hbc ▸ ho h⟩) o o J J s s hs hs Gi Gi hst hst h0 n C C' hC hC' f hf y y' hy hy' hyy

end Athena.Gen
