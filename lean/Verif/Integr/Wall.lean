import Verif.Integr.MirrorEx

/-!
# A reflecting wall is a plane of symmetry (C98)
-/

namespace Athena.Gen
open Athena.Bvals hiding Rng
open Athena.Vl3

variable {ns : ℕ}

/-! ## Specification -/

/-- The place in the doubled Domain, whose upper half is the given Domain with `N` zones in direction `t`, of zone (face) `y`. -/
def upper (t : Fin 3) (N : ℤ) (y : Idx) : Idx := fun u => if u = t then y t + N else y u

/-- `D'` is `D`, which begins with a reflecting wall in direction `t`, together with its image behind the wall. -/
structure Doubled (t : Fin 3) (D D' : Dom) : Prop where
  wall : D.bcIn t = .reflect
  far : D.bcOut t = .reflect ∨ D.bcOut t = .conduct
  size : ∀ u, tot D' u = if u = t then 2 * tot D t else tot D u
  bcIn : ∀ u, D'.bcIn u = if u = t then D.bcOut t else D.bcIn u
  bcOut : ∀ u, D'.bcOut u = D.bcOut u

/-! ## Boundary conditions -/

open Classical in
/-- The sign a field acquires behind the boundaries of direction `u`. -/
noncomputable def bSgn (c : Cfg) (ki ko : Fin 3 → Bvals.Kind) (nx : Fin 3 → ℕ) (f : Fld) (y : Idx) (u : Fin 3) : ℝ :=
  if Minus c ki ko nx f y u then -1 else 1

theorem image_sgn {c : Cfg} {ki ko : Fin 3 → Bvals.Kind} (G : Grid ℝ) (f : Fld) (y : Idx) (h : ¬ ∃ u, OnWall c ki ko G.nx f y u) :
    image c ki ko G f y = bSgn c ki ko G.nx f y 0 * bSgn c ki ko G.nx f y 1 * bSgn c ki ko G.nx f y 2 *
      f.val G (fun t => imgJ (ki t) (ko t) (lo c G.nx t) (hi c G.nx t) (extra G.nx f t) (G.nx t) (y t)) := by
  unfold image
  dsimp only
  rw [if_neg h]
  unfold bSgn
  by_cases a0 : Minus c ki ko G.nx f y 0 <;> by_cases a1 : Minus c ki ko G.nx f y 1 <;>
    by_cases a2 : Minus c ki ko G.nx f y 2 <;> simp only [a0, a1, a2, if_true, if_false] <;> ring

theorem image_wall {c : Cfg} {ki ko : Fin 3 → Bvals.Kind} (G : Grid ℝ) (f : Fld) (y : Idx) (h : ∃ u, OnWall c ki ko G.nx f y u) :
    image c ki ko G f y = 0 := by
  unfold image
  exact if_pos h

/-- The product of the signs, one direction taken out. -/
theorem prod3 (g : Fin 3 → ℝ) (t : Fin 3) : g 0 * g 1 * g 2 = g t * (g (t + 1) * g (t + 2)) := by
  rcases three t with rfl | rfl | rfl
  · show g 0 * g 1 * g 2 = g 0 * (g 1 * g 2); ring
  · show g 0 * g 1 * g 2 = g 1 * (g 2 * g 0); ring
  · show g 0 * g 1 * g 2 = g 2 * (g 0 * g 1); ring

theorem succ_ne (t : Fin 3) : t + 1 ≠ t ∧ t + 2 ≠ t := by rcases three t with rfl | rfl | rfl <;> decide

/-- Upper half of the doubled contents, which are symmetric. -/
def HalfA (ng ns : ℕ) (t : Fin 3) (G G' : Grid ℝ) : Prop :=
  (∀ f : Fld, f.In (cfg ng ns) → ∀ y, Active (cfg ng ns) G.nx f y → f.val G y = f.val G' (upper t (G.nx t) y)) ∧ MirA ng ns t G' G'
/-- The same for all zones. -/
def HalfS (ng ns : ℕ) (t : Fin 3) (G G' : Grid ℝ) : Prop :=
  (∀ f : Fld, f.In (cfg ng ns) → ∀ y, Stored (cfg ng ns) G.nx f y → f.val G y = f.val G' (upper t (G.nx t) y)) ∧ MirS ng ns t G' G'

/-- Sizes of the doubled Grid. -/
structure Dbl (t : Fin 3) (nx nx' : Fin 3 → ℕ) : Prop where
  at_t : nx' t = 2 * nx t
  ne : ∀ u, u ≠ t → nx' u = nx u
  pos : 1 < nx t

theorem Dbl.lo {t : Fin 3} {nx nx' : Fin 3 → ℕ} (h : Dbl t nx nx') (c : Cfg) (u : Fin 3) : lo c nx' u = lo c nx u := by
  by_cases hu : u = t
  · subst hu; have := h.pos; simp only [Bvals.lo, h.at_t]; rw [if_pos (by omega), if_pos (by omega)]
  · simp only [Bvals.lo, h.ne u hu]
theorem Dbl.hi {t : Fin 3} {nx nx' : Fin 3 → ℕ} (h : Dbl t nx nx') (c : Cfg) (u : Fin 3) :
    hi c nx' u = hi c nx u + if u = t then (nx t : ℤ) else 0 := by
  by_cases hu : u = t
  · subst hu; have := h.pos; simp only [Bvals.hi, h.at_t]; rw [if_pos (by omega), if_pos (by omega), if_true]; push_cast; ring
  · simp only [Bvals.hi, h.ne u hu, if_neg hu, add_zero]
theorem Dbl.extra {t : Fin 3} {nx nx' : Fin 3 → ℕ} (h : Dbl t nx nx') (f : Fld) (u : Fin 3) : extra nx' f u = extra nx f u := by
  by_cases hu : u = t
  · subst hu
    have := h.pos
    unfold Bvals.extra
    rw [h.at_t]
    by_cases hf : f = .face u
    · rw [if_pos ⟨hf, by omega⟩, if_pos ⟨hf, by omega⟩]
    · rw [if_neg (fun h => hf h.1), if_neg (fun h => hf h.1)]
  · simp only [Bvals.extra, h.ne u hu]
theorem Dbl.size {t : Fin 3} {nx nx' : Fin 3 → ℕ} (h : Dbl t nx nx') (c : Cfg) (u : Fin 3) :
    size c nx' u = size c nx u + if u = t then (nx t : ℤ) else 0 := by
  by_cases hu : u = t
  · subst hu; have := h.pos; simp only [Bvals.size, h.at_t]; rw [if_pos (by omega), if_pos (by omega), if_true]; push_cast; ring
  · simp only [Bvals.size, h.ne u hu, if_neg hu, add_zero]

theorem upper_eq (t : Fin 3) (N : ℤ) (y : Idx) : upper t N y t = y t + N := by simp [upper]
theorem upper_ne {t u : Fin 3} (h : u ≠ t) (N : ℤ) (y : Idx) : upper t N y u = y u := by simp [upper, h]

theorem Dbl.stored {t : Fin 3} {nx nx' : Fin 3 → ℕ} (h : Dbl t nx nx') {c : Cfg} {f : Fld} {y : Idx} (hy : Stored c nx f y) :
    Stored c nx' f (upper t (nx t) y) := by
  intro u
  have := hy u
  rw [h.extra, h.size]
  by_cases hu : u = t
  · subst hu; rw [upper_eq, if_pos rfl]; omega
  · rw [upper_ne hu, if_neg hu]; omega
theorem Dbl.active {t : Fin 3} {nx nx' : Fin 3 → ℕ} (h : Dbl t nx nx') {c : Cfg} {f : Fld} {y : Idx} (hy : Active c nx f y) :
    Active c nx' f (upper t (nx t) y) := by
  intro u
  have := hy u
  rw [h.extra, h.lo, h.hi]
  by_cases hu : u = t
  · subst hu; rw [upper_eq, if_pos rfl]; omega
  · rw [upper_ne hu, if_neg hu]; omega

theorem sgn_reflect {c : Cfg} {ki ko : Fin 3 → Bvals.Kind} {nx : Fin 3 → ℕ} {t : Fin 3} (h : ki t = .reflect) (f : Fld) {y : Idx} (hy : y t < lo c nx t)
    (h2 : ¬ y t > hi c nx t + extra nx f t) : bSgn c ki ko nx f y t = mirSgn t f := by
  unfold mirSgn bSgn
  congr 1
  unfold Minus
  rw [h]
  simp [Bvals.Odd, hy, h2]

/-- The reflecting wall puts into the ghost zones what the doubled Domain has behind the plane of symmetry. -/
theorem image_half {ng : ℕ} {t : Fin 3} {G G' : Grid ℝ} (hd : Dims (cfg ng ns) G.nx) (hd' : Dims (cfg ng ns) G'.nx) (hx : Dbl t G.nx G'.nx)
    {ki ko ki' : Fin 3 → Bvals.Kind} (hk : ∀ u, ki u ≠ .later) (hk' : ∀ u, ko u ≠ .later)
    (hw : ki t = .reflect) (hfar : ko t = .reflect ∨ ko t = .conduct) (h1 : ∀ u, ki' u = if u = t then ko t else ki u)
    (hA : HalfA ng ns t G G') {f : Fld} (hf : f.In (cfg ng ns)) {y : Idx} (hy : Stored (cfg ng ns) G.nx f y) :
    image (cfg ng ns) ki ko G f y = image (cfg ng ns) ki' ko G' f (upper t (G.nx t) y) := by
  have hb : 0 ≤ extra G.nx f t ∧ extra G.nx f t ≤ 1 := by unfold extra; split_ifs <;> omega
  have hng : (ng : ℤ) ≤ G.nx t := by
    have := hd.zones t; have := hx.pos; simp only [cfg] at *; omega
  have hlo : lo (cfg ng ns) G.nx t = ng := by simp only [lo, cfg]; rw [if_pos (show G.nx t > 1 from hx.pos)]
  have hhi : hi (cfg ng ns) G.nx t = G.nx t + ng - 1 := by simp only [hi, cfg]; rw [if_pos (show G.nx t > 1 from hx.pos)]
  have hyt := hy t
  have hsz : size (cfg ng ns) G.nx t = G.nx t + 2 * ng := by simp only [size, cfg]; rw [if_pos (show G.nx t > 1 from hx.pos)]
  have lo't := hx.lo (cfg ng ns) t
  have hi't := hx.hi (cfg ng ns) t
  rw [if_pos rfl] at hi't
  have ex't := hx.extra f t
  have nx't := hx.at_t
  have hk1 : ∀ u, ki' u ≠ .later := fun u => by rw [h1]; split_ifs; exacts [hk' t, hk u]
  have zt := upper_eq t (G.nx t) y
  have hz := hx.stored hy
  have wne : ∀ u, u ≠ t → (OnWall (cfg ng ns) ki ko G.nx f y u ↔ OnWall (cfg ng ns) ki' ko G'.nx f (upper t (G.nx t) y) u) := by
    intro u hu
    unfold OnWall
    rw [hx.lo, hx.hi, if_neg hu, add_zero, upper_ne hu, h1, if_neg hu, hx.ne u hu]
  have act := image_active hd hk hk' f y hy
  have act' := image_active hd' hk1 hk' f _ hz
  have ine : ∀ u, u ≠ t → imgJ (ki' u) (ko u) (lo (cfg ng ns) G'.nx u) (hi (cfg ng ns) G'.nx u) (extra G'.nx f u) (G'.nx u) (upper t (G.nx t) y u) =
      imgJ (ki u) (ko u) (lo (cfg ng ns) G.nx u) (hi (cfg ng ns) G.nx u) (extra G.nx f u) (G.nx u) (y u) := by
    intro u hu
    rw [hx.lo, hx.hi, hx.extra, if_neg hu, add_zero, upper_ne hu, h1, if_neg hu, hx.ne u hu]
  have sne : ∀ u, u ≠ t → bSgn (cfg ng ns) ki' ko G'.nx f (upper t (G.nx t) y) u = bSgn (cfg ng ns) ki ko G.nx f y u := by
    intro u hu
    unfold bSgn Minus
    rw [hx.lo, hx.hi, hx.extra, if_neg hu, add_zero, upper_ne hu, h1, if_neg hu]
  have mid : ∀ (ki ko : Bvals.Kind) (l h b n j : ℤ), l ≤ j → j ≤ h + b → imgJ ki ko l h b n j = j := by
    intro ki ko l h b n j a1 a2
    unfold imgJ
    rw [if_neg (by omega), if_neg (by omega)]
  by_cases W' : ∃ u, OnWall (cfg ng ns) ki' ko G'.nx f (upper t (G.nx t) y) u
  · rw [image_wall G' f _ W', image_wall]
    obtain ⟨u, hu⟩ := W'
    by_cases hut : u = t
    · subst hut
      refine ⟨u, hu.1, hx.pos, ?_⟩
      have e1 : extra G.nx f u = 1 := if_pos ⟨hu.1, hx.pos⟩
      rcases hu.2.2 with ⟨_, h⟩ | ⟨h, h'⟩
      · omega
      · right; exact ⟨h, by omega⟩
    · exact ⟨u, (wne u hut).2 hu⟩
  by_cases W : ∃ u, OnWall (cfg ng ns) ki ko G.nx f y u
  · rw [image_wall G f _ W, image_sgn G' f _ W']
    obtain ⟨u, hu⟩ := W
    have hut : u = t := by
      by_contra h
      exact W' ⟨u, (wne u h).1 hu⟩
    subst hut
    have e1 : extra G.nx f u = 1 := if_pos ⟨hu.1, hx.pos⟩
    have yl : y u = lo (cfg ng ns) G.nx u := by
      rcases hu.2.2 with ⟨_, h⟩ | ⟨h, h'⟩
      · exact h
      · exact absurd ⟨u, hu.1, by omega, Or.inr ⟨h, by omega⟩⟩ W'
    have e := hA.2 f hf _ act'
    rw [show mirIdx (cfg ng ns) G'.nx u f (fun t => imgJ (ki' t) (ko t) (lo (cfg ng ns) G'.nx t) (hi (cfg ng ns) G'.nx t) (extra G'.nx f t) (G'.nx t)
        (upper u (G.nx u) y t)) = (fun t => imgJ (ki' t) (ko t) (lo (cfg ng ns) G'.nx t) (hi (cfg ng ns) G'.nx t) (extra G'.nx f t) (G'.nx t)
        (upper u (G.nx u) y t)) by
      funext v
      by_cases hv : v = u
      · subst hv
        rw [mirIdx_eq, mid _ _ _ _ _ _ _ (by omega) (by omega)]
        omega
      · rw [mirIdx_ne _ _ hv]] at e
    have hs : mirSgn u f = -1 := by simp [mirSgn, hu.1]
    rw [hs] at e
    have e0 : f.val G' (fun t => imgJ (ki' t) (ko t) (lo (cfg ng ns) G'.nx t) (hi (cfg ng ns) G'.nx t) (extra G'.nx f t) (G'.nx t)
        (upper u (G.nx u) y t)) = 0 := by linarith
    rw [e0, mul_zero]
  rw [image_sgn G f _ W, image_sgn G' f _ W', prod3 (bSgn (cfg ng ns) ki ko G.nx f y) t, prod3 (bSgn (cfg ng ns) ki' ko G'.nx f _) t,
    sne _ (succ_ne t).1, sne _ (succ_ne t).2]
  by_cases hlt : y t < lo (cfg ng ns) G.nx t
  · rw [sgn_reflect hw f hlt (by omega)]
    have s1 : bSgn (cfg ng ns) ki' ko G'.nx f (upper t (G.nx t) y) t = 1 := by
      unfold bSgn
      rw [if_neg]
      rintro (⟨h, _⟩ | ⟨h, _⟩) <;> omega
    rw [s1, hA.2 f hf _ act', hA.1 f hf _ act]
    have e : mirIdx (cfg ng ns) G'.nx t f (fun u => imgJ (ki' u) (ko u) (lo (cfg ng ns) G'.nx u) (hi (cfg ng ns) G'.nx u) (extra G'.nx f u) (G'.nx u)
        (upper t (G.nx t) y u)) = upper t (G.nx t) (fun u => imgJ (ki u) (ko u) (lo (cfg ng ns) G.nx u) (hi (cfg ng ns) G.nx u) (extra G.nx f u)
        (G.nx u) (y u)) := by
      funext u
      by_cases hu : u = t
      · subst hu
        rw [mirIdx_eq, mid _ _ _ _ _ _ _ (by omega) (by omega), upper_eq, upper_eq]
        unfold imgJ
        rw [if_pos hlt, hw]
        dsimp only
        omega
      · rw [mirIdx_ne _ _ hu, ine u hu, upper_ne hu]
    rw [e]
    ring
  · have e : (fun u => imgJ (ki' u) (ko u) (lo (cfg ng ns) G'.nx u) (hi (cfg ng ns) G'.nx u) (extra G'.nx f u) (G'.nx u)
        (upper t (G.nx t) y u)) = upper t (G.nx t) (fun u => imgJ (ki u) (ko u) (lo (cfg ng ns) G.nx u) (hi (cfg ng ns) G.nx u) (extra G.nx f u)
        (G.nx u) (y u)) := by
      funext u
      by_cases hu : u = t
      · subst hu
        rw [upper_eq, upper_eq]
        by_cases hgt : y u > hi (cfg ng ns) G.nx u + extra G.nx f u
        · unfold imgJ
          rw [if_neg (by omega), if_pos (by omega), if_neg hlt, if_pos hgt]
          rcases hfar with h | h <;> rw [h] <;> dsimp only <;> omega
        · rw [mid _ _ _ _ _ _ _ (by omega) (by omega), mid _ _ _ _ _ _ _ (by omega) (by omega)]
      · rw [ine u hu, upper_ne hu]
    rw [hA.1 f hf _ act, e]
    congr 2
    unfold bSgn
    congr 1
    unfold Minus
    rw [h1, if_pos rfl, zt]
    refine propext (or_congr ?_ ?_)
    · constructor
      · rintro ⟨h, _⟩; exact absurd h hlt
      · rintro ⟨h, _⟩; omega
    · refine and_congr_left fun _ => ?_
      omega

/-! ## Runs -/

theorem advance_half {M : Funs ℝ ns} (hL : M.Local) (hM : M.Mirror) (K : Kind) (w : Which) (hI : w = .d3 → M.Isotropic) (q : Step ℝ) {ng : ℕ} (hng : 4 ≤ ng)
    (J J' : Works ℝ ns) {G G' : Grid ℝ} {t : Fin 3} (hA : HasDim (dims w) G.nx) (hA' : HasDim (dims w) G'.nx) (hx : Dbl t G.nx G'.nx) (hs : HalfS ng ns t G G') :
    HalfA ng ns t (advance (integ M K w) q ng J G) (advance (integ M K w) q ng J' G') := by
  have hI' := integ_lattice M hL K w
  refine ⟨fun f hf y hy => ?_, fun f hf y hy => ?_⟩
  · change Active (cfg ng ns) G.nx f y at hy
    change _ = f.val (advance (integ M K w) q ng J' G') (upper t (G.nx t) y)
    let o : Idx := fun u => if u = t then (G.nx t : ℤ) else 0
    have eo : ∀ y : Idx, upper t (G.nx t) y = fun u => y u + o u := by
      intro y; funext u
      by_cases hu : u = t
      · subst hu; rw [upper_eq]; simp [o]
      · rw [upper_ne hu]; simp [o, hu]
    rw [hI'.active q ng J G ((toSt ns G').shift (o 2) (o 1) (o 0)) hng hA (fun f hf y hy => by
        rw [hs.1 f hf y hy, Vl3.val_shift _ _ hf, ofSt_toSt _ _ hf, eo]) f hf y hy, ← hI'.shift, Vl3.val_shift _ _ hf, ← eo,
      hI'.active q ng J' G' (toSt ns G') hng hA' (fun f hf y hy => (ofSt_toSt _ _ hf _).symm) f hf _ (hx.active hy)]
    cases f with
    | cell v => cases v with
      | s n =>
        have hn : n < ns := by simpa [Fld.In, vars, cfg] using hf
        simp only [Fld.val, ofSt, Cons.get, dif_pos hn]
      | _ => rfl
    | face n => rfl
  · exact advance_mir hL hM K w hI q hng J' J' t hA' rfl hs.2 f hf y hy

/-- **C98.** A run of a Domain that begins with a reflecting wall in direction `t`, next to a run of the doubled Domain: the Domain and its
mirror image behind the wall.  In exact arithmetic, after any number of cycles, every zone and face, ghost zones included, of every Grid of the first run
holds what the second run holds in that place: the wall does what the mirrored fluid would do.  The two runs may be divided
into Grids differently.  Partial: the far end is reflecting or conducting, and solver, reconstruction and conversions do not distinguish left from right. -/
theorem wall_is_symmetry_partial (M : Funs ℝ ns) (hL : M.Local) (hM : M.Mirror) (K : Kind) (w : Which) (hI : w = .d3 → M.Isotropic) (q : ℕ → Step ℝ)
    {ng : ℕ} (hng : 4 ≤ ng)
    (Ds Ds' : List Dom) (D D' : Dom) (hDs : D ∈ Ds) (hDs' : D' ∈ Ds') (hD : Regular (cfg ng ns) D) (hD' : Regular (cfg ng ns) D')
    (hw : integrateInit K (tot D) false = .ok (some w)) (t : Fin 3) (ht : 1 < tot D t) (hDD : Doubled t D D')
    (o o' : ℕ → Fin 3 → Coord → Bool) (J J' : ℕ → Coord → Works ℝ ns) (s s' : ℕ → Coord → Grid ℝ)
    (hs : IsRun (integ M K w) q ng (bufSize (cfg ng ns) Ds) D o J s)
    (hs' : IsRun (integ M K w) q ng (bufSize (cfg ng ns) Ds') D' o' J' s')
    (Gi Gi' : Grid ℝ) (hst : Start (cfg ng ns) (bufSize (cfg ng ns) Ds) D Gi (s 0))
    (hst' : Start (cfg ng ns) (bufSize (cfg ng ns) Ds') D' Gi' (s' 0))
    (h0 : ∀ f : Fld, f.In (cfg ng ns) → ∀ y, Active (cfg ng ns) (tot D) f y → f.val Gi' (upper t (tot D t) y) = f.val Gi y)
    (hsym : ∀ f : Fld, f.In (cfg ng ns) → ∀ y, Active (cfg ng ns) (tot D') f y → f.val Gi' y = mirSgn t f * f.val Gi' (mirIdx (cfg ng ns) (tot D') t f y))
    (n : ℕ) (C C' : Coord) (hC : D.Has C) (hC' : D'.Has C') (f : Fld) (hf : f.In (cfg ng ns)) (y y' : Idx)
    (hy : Stored (cfg ng ns) (D.gnx C) f y) (hy' : Stored (cfg ng ns) (D'.gnx C') f y')
    (hyy : gl D' C' y' = upper t (tot D t) (gl D C y)) :
    f.val (s n C) y = f.val (s' n C') y' := by
  have hdb : Dbl t (tot D) (tot D') := ⟨by rw [hDD.size, if_pos rfl], fun u hu => by rw [hDD.size, if_neg hu], ht⟩
  have hdD := init_hasDim hw hDs hD (fun _ => Iff.rfl)
  have hdD' := init_hasDim hw hDs' hD' (fun u => by
    by_cases hu : u = t
    · subst hu; rw [hdb.at_t]; omega
    · rw [hdb.ne u hu])
  have dm := dims_tot (hD.ok hDs) hC
  have dm' := dims_tot (hD'.ok hDs') hC'
  obtain ⟨G, G', hR, hE, hE'⟩ := runs_related (integ_lattice M hL K w) (integ_lattice M hL K w) q q hng Ds Ds' D D' hDs hDs'
    hD hD' ⟨C, hC⟩ ⟨C', hC'⟩ hdD hdD'
    (HalfA ng ns t) (HalfS ng ns t) (by
      intro G G' H H' hG hG' hA hF hF'
      refine ⟨fun f hf y hy => ?_, fun f hf y hy => ?_⟩
      · rw [hF.1] at hy ⊢
        have hdb' : Dbl t G.nx G'.nx := by rw [hG, hG']; exact hdb
        rw [hF.2 f hf y hy, hF'.2 f hf _ (hdb'.stored hy),
          image_half (by rw [hG]; exact dm) (by rw [hG']; exact dm') hdb' hD.kin hD.kout hDD.wall hDD.far hDD.bcIn hA hf hy]
        congr 1
        funext u; exact (hDD.bcOut u).symm
      · rw [hF'.1] at hy ⊢
        rw [hF'.2 f hf y hy, hF'.2 _ hf _ (stored_mir t hy)]
        have hbc : D'.bcIn t = D'.bcOut t := by rw [hDD.bcIn, if_pos rfl, hDD.bcOut]
        refine image_mir rfl (fun u => ?_) (fun u => ?_) f y ?_ (hA.2 f hf _ ?_)
        · split_ifs with h
          · rw [h, hbc]
          · rfl
        · split_ifs with h
          · rw [h, hbc]
          · rfl
        · rw [hbc, hDD.bcOut]
          rintro (h | h) <;> rcases hDD.far with h' | h' <;> rw [h'] at h <;> exact absurd h (by decide)
        · exact image_active (by rw [hG']; exact dm') hD'.kin hD'.kout f y hy)
    (by
      intro n J J' G G' hG hG' hS
      refine advance_half hL hM K w hI (q n) hng J J' ?_ ?_ ?_ hS
      · rw [hG]; exact hasDim_tot (hD.ok hDs) hC (hdD C hC)
      · rw [hG']; exact hasDim_tot (hD'.ok hDs') hC' (hdD' C' hC')
      · rw [hG, hG']; exact hdb)
    o o' J J' s s' hs hs' Gi Gi' hst hst' (by
      refine ⟨fun f hf y hy => ?_, fun f hf y hy => ?_⟩
      · rw [hst.1] at hy ⊢
        exact (h0 f hf y hy).symm
      · rw [hst'.1] at hy ⊢
        exact hsym f hf y hy)
  rw [hE' n C' hC' f hf y' hy', hE n C hC _ hf y hy, hyy, ← (hR n).1]
  refine (hR n).2.2.1 f hf _ ?_
  rw [(hR n).1]
  exact stored_iff.1 (inR_gl (hD.ok hDs) hC (stored_iff.2 hy))

/-! ## An instance -/

/-- Five zones in x1 (and four in each further direction) between reflecting walls, or ten. -/
def exDw (w : Which) (N : ℕ) : Dom where
  NG := fun _ => 1
  nx := fun t _ => if t = 0 then N else if dims w t then 4 else 1
  bcIn := fun t => if t = 0 then .reflect else .periodic
  bcOut := fun t => if t = 0 then .reflect else .periodic

theorem exDw_regular (w : Which) {N : ℕ} (hN : 4 ≤ N) : Regular (cfg 4 1) (exDw w N) where
  dims C hC := by
    have e : ∀ t, (exDw w N).gnx C t = if t = 0 then N else if dims w t then 4 else 1 := fun t => rfl
    refine ⟨by decide, ?_, ?_⟩
    · intro t; rw [e]; show _ ∨ _ ∧ 4 ≤ _; split_ifs <;> omega
    · intro t d htd h
      rw [e] at h ⊢
      cases w <;> rcases three t with rfl | rfl | rfl <;> rcases three d with rfl | rfl | rfl <;>
        simp [dims, A1, A2, A3] at htd h ⊢ <;> omega
  split t hN := by simp [exDw] at hN
  kin t := by simp only [exDw]; split_ifs <;> simp
  kout t := by simp only [exDw]; split_ifs <;> simp
  per t hN := by simp [exDw] at hN

theorem exDw_tot (w : Which) (N : ℕ) (t : Fin 3) : tot (exDw w N) t = if t = 0 then N else if dims w t then 4 else 1 := by
  rcases three t with rfl | rfl | rfl <;> simp [tot, exDw, disp]

theorem exDw_init (K : Kind) (w : Which) : integrateInit K (tot (exDw w 5)) false = .ok (some w) := by
  have h0 : tot (exDw w 5) 0 = 5 := by rw [exDw_tot, if_pos rfl]
  have h1 := exDw_tot w 5 1
  have h2 := exDw_tot w 5 2
  unfold integrateInit
  rw [h0, h1, h2]
  cases w <;> cases K <;> rfl

theorem exDw_doubled (w : Which) : Doubled 0 (exDw w 5) (exDw w 10) :=
  ⟨rfl, Or.inl rfl, fun u => by rw [exDw_tot, exDw_tot, exDw_tot]; split_ifs <;> simp_all, fun u => by simp only [exDw]; split_ifs <;> simp_all, fun u => rfl⟩

theorem has_exDw (w : Which) (N : ℕ) : (exDw w N).Has (fun _ => 0) := by intro t; simp [exDw]

/-- Symmetric contents: what `G` holds in the upper half (`9 ≤ x1`), and its image. -/
noncomputable def symGrid (w : Which) (G : Grid ℝ) : Grid ℝ where
  nx := tot (exDw w 10)
  U := fun y v => if 9 ≤ y 0 then G.U (fun u => if u = 0 then y 0 - 5 else y u) v
    else mirSgn 0 (.cell v) * G.U (fun u => if u = 0 then 12 - y 0 else y u) v
  Bi := fun n y => if n = 0 then (if y 0 = 9 then 0 else if 9 < y 0 then G.Bi 0 (fun u => if u = 0 then y 0 - 5 else y u)
      else -G.Bi 0 (fun u => if u = 0 then 13 - y 0 else y u))
    else if 9 ≤ y 0 then G.Bi n (fun u => if u = 0 then y 0 - 5 else y u) else G.Bi n (fun u => if u = 0 then 12 - y 0 else y u)

/-- A run between walls and a run of the doubled Domain, for every integrator and dimension, with data that differ from zone to zone: they satisfy the hypotheses of
`wall_is_symmetry_partial`, and so the conclusion holds for them. -/
example (K : Kind) (w : Which) : ∃ (s s' : ℕ → Coord → Grid ℝ) (J : ℕ → Coord → Works ℝ 1) (Gi : Grid ℝ),
    IsRun (integ exM K w) (fun _ => ⟨0.1, 1, 2, 3⟩) 4 (bufSize (cfg 4 1) [exDw w 5]) (exDw w 5) (fun _ _ _ => false) J s ∧
    IsRun (integ exM K w) (fun _ => ⟨0.1, 1, 2, 3⟩) 4 (bufSize (cfg 4 1) [exDw w 10]) (exDw w 10) (fun _ _ _ => true) J s' ∧
    Start (cfg 4 1) (bufSize (cfg 4 1) [exDw w 5]) (exDw w 5) Gi (s 0) ∧ (Gi.U = (exG2 w).U) ∧
    Start (cfg 4 1) (bufSize (cfg 4 1) [exDw w 10]) (exDw w 10) (symGrid w Gi) (s' 0) ∧
    ∀ n, (s n (fun _ => 0)).U (mkIdx 3 0 0) .d = (s' n (fun _ => 0)).U (mkIdx 8 0 0) .d := by
  have hm : exDw w 5 ∈ [exDw w 5] := List.mem_singleton.2 rfl
  have hm' : exDw w 10 ∈ [exDw w 10] := List.mem_singleton.2 rfl
  let J : ℕ → Coord → Works ℝ 1 := fun _ _ => default
  let Gi : Grid ℝ := ⟨tot (exDw w 5), (exG2 w).U, fun n y => if n = 0 then (y 0 - 4) else 3⟩
  obtain ⟨s, hst, hr⟩ := runs_exist (integ exM K w) (fun _ => ⟨0.1, 1, 2, 3⟩) hm (exDw_regular w (by omega)) ⟨_, has_exDw w 5⟩ (fun _ _ _ => false) J Gi rfl
  obtain ⟨s', hst', hr'⟩ := runs_exist (integ exM K w) (fun _ => ⟨0.1, 1, 2, 3⟩) hm' (exDw_regular w (by omega)) ⟨_, has_exDw w 10⟩ (fun _ _ _ => true) J
    (symGrid w Gi) rfl
  have l5 : lo (cfg 4 1) (tot (exDw w 5)) 0 = 4 := by simp only [lo, exDw_tot]; rfl
  have l10 : lo (cfg 4 1) (tot (exDw w 10)) 0 = 4 := by simp only [lo, exDw_tot]; rfl
  have h10 : hi (cfg 4 1) (tot (exDw w 10)) 0 = 13 := by simp only [hi, exDw_tot]; rfl
  have t5 : tot (exDw w 5) 0 = 5 := by rw [exDw_tot, if_pos rfl]
  have t10 : tot (exDw w 10) 0 = 10 := by rw [exDw_tot, if_pos rfl]
  have up : ∀ y : Idx, (fun u => if u = 0 then upper 0 5 y 0 - 5 else upper 0 5 y u) = y := by
    intro y; funext u
    by_cases hu : u = 0
    · subst hu; simp [upper]
    · simp [upper, hu]
  have key := wall_is_symmetry_partial exM exM_local exM_mirror K w (fun _ => exM_isotropic) (fun _ => ⟨0.1, 1, 2, 3⟩) (by omega) _ _ _ _ hm hm'
    (exDw_regular w (by omega)) (exDw_regular w (by omega)) (exDw_init K w) 0 (by rw [exDw_tot]; simp) (exDw_doubled w) _ _ J J s s' hr hr' Gi _ hst hst'
    (by
      intro f hf y hy
      have h4 := (hy 0).1
      rw [l5] at h4
      rw [t5]
      have h9 : 9 ≤ upper 0 ((5 : ℕ) : ℤ) y 0 := by rw [upper_eq]; push_cast; omega
      cases f with
      | cell v => show (if 9 ≤ _ then _ else _) = _; rw [if_pos h9]; congr 1; exact up y
      | face m =>
        show (if m = 0 then _ else _) = _
        by_cases hm0 : m = 0
        · subst hm0
          rw [if_pos rfl]
          by_cases e9 : upper 0 ((5 : ℕ) : ℤ) y 0 = 9
          · rw [if_pos e9]
            have : y 0 = 4 := by rw [upper_eq] at e9; push_cast at e9; omega
            show (0 : ℝ) = ((y 0 : ℝ) - 4)
            rw [this]; norm_num
          · rw [if_neg e9, if_pos (by omega)]
            show Gi.Bi 0 _ = Gi.Bi 0 y
            congr 1; exact up y
        · rw [if_neg hm0, if_pos h9]
          show Gi.Bi m _ = Gi.Bi m y
          congr 1; exact up y)
    (by
      intro f hf y hy
      have e0 : mirIdx (cfg 4 1) (tot (exDw w 10)) 0 f y 0 = 17 + extra (tot (exDw w 10)) f 0 - y 0 := by rw [mirIdx_eq, l10, h10]; ring
      have en : ∀ u, u ≠ 0 → mirIdx (cfg 4 1) (tot (exDw w 10)) 0 f y u = y u := fun u hu => mirIdx_ne _ _ hu _ _
      cases f with
      | cell v =>
        have ex : extra (tot (exDw w 10)) (.cell v) 0 = 0 := if_neg (by simp)
        rw [ex] at e0
        have sq : mirSgn 0 (.cell v) * mirSgn 0 (.cell v) = 1 := by unfold mirSgn; split_ifs <;> norm_num
        show (if 9 ≤ y 0 then _ else _) = mirSgn 0 (.cell v) * (if 9 ≤ mirIdx (cfg 4 1) (tot (exDw w 10)) 0 (.cell v) y 0 then _ else _)
        rw [e0]
        by_cases h9 : 9 ≤ y 0
        · rw [if_pos h9, if_neg (by omega), ← mul_assoc, sq, one_mul]
          congr 1; funext u
          by_cases hu : u = 0
          · subst hu; simp; ring
          · simp [hu, en u hu]
        · rw [if_neg h9, if_pos (by omega)]
          congr 2; funext u
          by_cases hu : u = 0
          · subst hu; simp; ring
          · simp [hu, en u hu]
      | face m =>
        by_cases hm0 : m = 0
        · subst hm0
          have ex : extra (tot (exDw w 10)) (.face 0) 0 = 1 := if_pos ⟨rfl, by rw [t10]; omega⟩
          rw [ex] at e0
          have sg : mirSgn 0 (.face 0) = -1 := by simp [mirSgn]
          rw [sg]
          show (if y 0 = 9 then _ else _) = -1 * (if mirIdx (cfg 4 1) (tot (exDw w 10)) 0 (.face 0) y 0 = 9 then _ else _)
          rw [e0]
          by_cases h9 : y 0 = 9
          · rw [if_pos h9, if_pos (by omega)]; norm_num
          · rw [if_neg h9, if_neg (show ¬ 17 + 1 - y 0 = 9 by omega)]
            by_cases h8 : 9 < y 0
            · rw [if_pos h8, if_neg (show ¬ 9 < 17 + 1 - y 0 by omega), neg_one_mul, neg_neg]
              congr 1; funext u
              by_cases hu : u = 0
              · subst hu; simp; ring
              · simp [hu, en u hu]
            · rw [if_neg h8, if_pos (show 9 < 17 + 1 - y 0 by omega), neg_one_mul]
              congr 2; funext u
              by_cases hu : u = 0
              · subst hu; simp; ring
              · simp [hu, en u hu]
        · have ex : extra (tot (exDw w 10)) (.face m) 0 = 0 := if_neg (by simp [hm0])
          rw [ex] at e0
          have sg : mirSgn 0 (.face m) = 1 := by simp [mirSgn, hm0]
          rw [sg, one_mul]
          show (if m = 0 then _ else _) = (if m = 0 then _ else _)
          rw [if_neg hm0, if_neg hm0, e0]
          by_cases h9 : 9 ≤ y 0
          · rw [if_pos h9, if_neg (by omega)]
            congr 1; funext u
            by_cases hu : u = 0
            · subst hu; simp; ring
            · simp [hu, en u hu]
          · rw [if_neg h9, if_pos (by omega)]
            congr 1; funext u
            by_cases hu : u = 0
            · subst hu; simp; ring
            · simp [hu, en u hu])
  refine ⟨s, s', J, Gi, hr, hr', hst, rfl, hst', fun n => ?_⟩
  exact key n (fun _ => 0) (fun _ => 0) (has_exDw _ _) (has_exDw _ _) (.cell .d) (by simp [Fld.In, vars]) (mkIdx 3 0 0) (mkIdx 8 0 0)
      (by intro t; cases w <;> rcases three t with rfl | rfl | rfl <;> decide) (by intro t; cases w <;> rcases three t with rfl | rfl | rfl <;> decide)
      (by funext t; cases w <;> rcases three t with rfl | rfl | rfl <;> decide)

end Athena.Gen
