import Verif.Bvals.Stage

/-! The decomposed Domain against the Domain on a single Grid. -/

namespace Athena.Bvals

/-- First zone of the `i`-th Grid in direction `t`, relative to the Domain. -/
def disp (D : Dom) (t : Fin 3) : Nat → Nat
  | 0 => 0
  | i + 1 => disp D t i + D.nx t i

/-- Number of zones of the Domain. -/
def tot (D : Dom) (t : Fin 3) : Nat := disp D t (D.NG t)

/-- The same Domain on a single Grid. -/
def single (D : Dom) : Dom := { NG := fun _ => 1, nx := fun t _ => tot D t, bcIn := D.bcIn, bcOut := D.bcOut }

/-- The index in the single Grid of the zone with index `y` of Grid `C`. -/
def gl (D : Dom) (C : Coord) (y : Idx) : Idx := fun t => y t + disp D t (C t)

theorem disp_le {D : Dom} {t : Fin 3} {i j : Nat} (h : i ≤ j) : disp D t i ≤ disp D t j := by
  induction j with
  | zero => rw [Nat.le_zero.1 h]
  | succ j ih =>
    rcases Nat.lt_or_ge i (j + 1) with h' | h'
    · exact Nat.le_trans (ih (by omega)) (Nat.le_add_right _ _)
    · rw [Nat.le_antisymm h h']

theorem disp_add_le {D : Dom} {t : Fin 3} {i j : Nat} (h : i < j) : disp D t i + D.nx t i ≤ disp D t j :=
  disp_le (D := D) (t := t) (i := i + 1) h

theorem tot_one {D : Dom} {t : Fin 3} (h : D.NG t = 1) : tot D t = D.nx t 0 := by
  unfold tot; rw [h]; simp [disp]

/-- The ranges in which a field is correct when the directions below `k` are done. -/
def stBase (c : Cfg) (nx : Fin 3 → Nat) (k : Nat) (t : Fin 3) : Int × Int :=
  if t.val < k ∧ 1 < nx t then (lo c nx t - c.ng, hi c nx t + c.ng) else (lo c nx t, hi c nx t)

def stF (c : Cfg) (nx : Fin 3 → Nat) (k : Nat) : Fld → Rng
  | .cell _ => stBase c nx k
  | .face n => fun t => if t = n then
      (if t.val < k ∧ 1 < nx t then (lo c nx t - (c.ng - 1), hi c nx t + c.ng)
       else if 1 < nx t then (lo c nx t, hi c nx t + 1) else (lo c nx t, hi c nx t)) else stBase c nx k t

def InR (r : Rng) (y : Idx) : Prop := ∀ t, (r t).1 ≤ y t ∧ y t ≤ (r t).2

theorem stF_one {c : Cfg} {nx : Fin 3 → Nat} {d : Fin 3} (h : ¬ 1 < nx d) (f : Fld) :
    stF c nx (d.val + 1) f = stF c nx d.val f := by
  have hb : ∀ t, stBase c nx (d.val + 1) t = stBase c nx d.val t := by
    intro t
    unfold stBase
    by_cases e : t = d
    · subst e; rw [if_neg (fun hh => h hh.2), if_neg (fun hh => h hh.2)]
    · have : t.val ≠ d.val := fun hh => e (Fin.ext hh)
      refine if_congr ?_ rfl rfl
      constructor
      · rintro ⟨a, b⟩; exact ⟨by omega, b⟩
      · rintro ⟨a, b⟩; exact ⟨by omega, b⟩
  cases f with
  | cell v => funext t; exact hb t
  | face n =>
    funext t
    simp only [stF]
    by_cases e : t = n
    · rw [if_pos e, if_pos e]
      by_cases e2 : t = d
      · subst e2
        rw [if_neg (c := t.val < t.val + 1 ∧ 1 < nx t) (fun hh => h hh.2), if_neg (c := t.val < t.val ∧ 1 < nx t) (fun hh => h hh.2)]
      · have : t.val ≠ d.val := fun hh => e2 (Fin.ext hh)
        refine if_congr ?_ rfl rfl
        constructor
        · rintro ⟨a, b⟩; exact ⟨by omega, b⟩
        · rintro ⟨a, b⟩; exact ⟨by omega, b⟩
    · rw [if_neg e, if_neg e]; exact hb t

theorem stF_off {c : Cfg} {nx : Fin 3 → Nat} {d t : Fin 3} (ht : t ≠ d) (f : Fld) :
    stF c nx (d.val + 1) f t = stF c nx d.val f t := by
  have : t.val ≠ d.val := fun hh => ht (Fin.ext hh)
  have hc : (t.val < d.val + 1 ∧ 1 < nx t) ↔ (t.val < d.val ∧ 1 < nx t) := by
    constructor
    · rintro ⟨a, b⟩; exact ⟨by omega, b⟩
    · rintro ⟨a, b⟩; exact ⟨by omega, b⟩
  cases f with
  | cell v => simp only [stF, stBase]; exact if_congr hc rfl rfl
  | face n =>
    simp only [stF, stBase]
    refine if_congr Iff.rfl (if_congr hc rfl rfl) (if_congr hc rfl rfl)

theorem stF_tr {c : Cfg} {nx : Fin 3 → Nat} (h : Dims c nx) {d t : Fin 3} (hd : 1 < nx d) (ht : t ≠ d) (f : Fld) :
    stF c nx d.val f t = trF c nx d f t := by
  have hU : stBase c nx d.val t = trU c nx d t := by
    unfold stBase trU
    by_cases e : t < d
    · rw [if_pos ⟨e, h.nest t d e hd⟩, if_pos e]
    · rw [if_neg (fun hh => e hh.1), if_neg e]
  cases f with
  | cell v => exact hU
  | face n =>
    simp only [stF, trF]
    by_cases e : t = n
    · subst e
      rw [if_pos rfl, if_neg ht]
      unfold trB
      rw [if_pos rfl]
      by_cases e : t < d
      · rw [if_pos ⟨e, h.nest t d e hd⟩, if_pos e]
      · rw [if_neg (fun hh => e hh.1), if_neg e]
        by_cases e3 : 1 < nx t
        · rw [if_pos e3, if_pos e3]
        · rw [if_neg e3, if_neg e3]
    · rw [if_neg e, hU]
      by_cases e2 : n = d
      · rw [if_pos e2]
      · rw [if_neg e2]; unfold trB; rw [if_neg e]

theorem stF_d {c : Cfg} {nx : Fin 3 → Nat} {d : Fin 3} (hd : 1 < nx d) (f : Fld) :
    stF c nx d.val f d = if f.Nrm d then (lo c nx d, hi c nx d + 1) else (lo c nx d, hi c nx d) := by
  cases f with
  | cell v => rw [if_neg (cell_not_nrm v d)]; simp [stF, stBase]
  | face n =>
    simp only [stF]
    by_cases e : d = n
    · rw [if_pos e, if_pos (face_nrm.2 e.symm), if_neg (by omega), if_pos hd]
    · rw [if_neg e, if_neg (fun h => e (face_nrm.1 h).symm)]; simp [stBase]

theorem stF_d1 {c : Cfg} {nx : Fin 3 → Nat} {d : Fin 3} (hd : 1 < nx d) (f : Fld) :
    stF c nx (d.val + 1) f d = if f.Nrm d then (lo c nx d - (c.ng - 1), hi c nx d + c.ng) else (lo c nx d - c.ng, hi c nx d + c.ng) := by
  cases f with
  | cell v => rw [if_neg (cell_not_nrm v d)]; simp [stF, stBase, hd]
  | face n =>
    simp only [stF]
    by_cases e : d = n
    · rw [if_pos e, if_pos (face_nrm.2 e.symm), if_pos ⟨by omega, hd⟩]
    · rw [if_neg e, if_neg (fun h => e (face_nrm.1 h).symm)]; simp [stBase, hd]

theorem inR_trIn {c : Cfg} {nx : Fin 3 → Nat} (h : Dims c nx) {d : Fin 3} (hd : 1 < nx d) {f : Fld} {y : Idx}
    (hy : InR (stF c nx (d.val + 1) f) y) : TrIn (trF c nx d f) d y := by
  intro t ht
  have := hy t
  rwa [stF_off ht, stF_tr h hd ht] at this

theorem inR_setD {c : Cfg} {nx nx' : Fin 3 → Nat} {d : Fin 3} (hs : SameTr d nx nx') (hd : 1 < nx' d) {f : Fld} {y : Idx}
    (hy : InR (stF c nx (d.val + 1) f) y) {j : Int} (h1 : lo c nx' d ≤ j)
    (h2 : j ≤ hi c nx' d ∨ (f.Nrm d ∧ j ≤ hi c nx' d + 1)) : InR (stF c nx' d.val f) (setD y d j) := by
  intro t
  by_cases e : t = d
  · subst e
    rw [setD_self, stF_d hd]
    by_cases hn : f.Nrm t
    · rw [if_pos hn]; dsimp only; omega
    · rw [if_neg hn]; dsimp only; rcases h2 with h | ⟨h, _⟩
      · omega
      · exact absurd h hn
  · rw [setD_ne _ _ _ _ e]
    have := hy t
    rw [stF_off e] at this
    have e2 : stF c nx' d.val f t = stF c nx d.val f t := by
      have hx := hs t e
      cases f with
      | cell v => simp only [stF, stBase, lo_congr hx, hi_congr hx, hx]
      | face n => simp only [stF, stBase, lo_congr hx, hi_congr hx, hx]
    rw [e2]; exact this

section
variable {c : Cfg} {sz : Nat} {D : Dom} (hD : DomOk c sz D)
include hD

theorem gnx_tot {C : Coord} (hC : D.Has C) (t : Fin 3) : (1 < D.gnx C t ↔ 1 < tot D t) ∧
    (¬ 1 < D.gnx C t → disp D t (C t) = 0 ∧ D.NG t = 1 ∧ tot D t = D.gnx C t) := by
  have hc := hC t
  have := (hD.dims C hC).zones t
  unfold Dom.gnx at *
  by_cases h : D.NG t = 1
  · have h0 : C t = 0 := by omega
    rw [tot_one h, h0]
    exact ⟨Iff.rfl, fun _ => ⟨rfl, h, rfl⟩⟩
  · have h1 := hD.split t (by omega) (C t) hc
    have h2 := disp_add_le (D := D) (t := t) hc
    refine ⟨⟨fun _ => ?_, fun _ => h1⟩, fun hh => absurd h1 hh⟩
    unfold tot; omega

theorem tot_ge {C : Coord} (hC : D.Has C) (t : Fin 3) : disp D t (C t) + D.gnx C t ≤ tot D t :=
  disp_add_le (hC t)

theorem dims_tot {C : Coord} (hC : D.Has C) : Dims c (tot D) := by
  have h := hD.dims C hC
  refine ⟨h.ghosts, ?_, ?_⟩
  · intro t
    have h1 := gnx_tot hD hC t
    have h2 := tot_ge hD hC t
    have h3 := h.zones t
    omega
  · intro t d htd hd
    rw [← (gnx_tot hD hC d).1] at hd
    rw [← (gnx_tot hD hC t).1]
    exact h.nest t d htd hd

theorem single_ok {C : Coord} (hC : D.Has C) : DomOk c sz (single D) := by
  refine ⟨fun _ _ => dims_tot hD hC, ?_, hD.kin, hD.kout, ?_, ?_⟩
  · intro t h; exact absurd h (by simp [single])
  · intro t h; exact absurd h (by simp [single])
  · intro C' d _ h; exact absurd h (by simp [single])

theorem inR_gl {C : Coord} (hC : D.Has C) {k : Nat} {f : Fld} {y : Idx} (hy : InR (stF c (D.gnx C) k f) y) :
    InR (stF c (tot D) k f) (gl D C y) := by
  intro t
  have h := hD.dims C hC
  have h1 := gnx_tot hD hC t
  have h2 := tot_ge hD hC t
  have h3 := hy t
  have h4 := h.zones t
  unfold gl
  by_cases ht : 1 < D.gnx C t
  · have ht' := h1.1.1 ht
    have e1 : lo c (tot D) t = lo c (D.gnx C) t := by rw [lo_pos ht, lo_pos ht']
    have e2 : hi c (tot D) t = hi c (D.gnx C) t + tot D t - D.gnx C t := by rw [hi_pos ht, hi_pos ht']; omega
    have hc : (t.val < k ∧ 1 < tot D t) ↔ (t.val < k ∧ 1 < D.gnx C t) := ⟨fun h => ⟨h.1, ht⟩, fun h => ⟨h.1, ht'⟩⟩
    cases f with
    | cell v =>
      simp only [stF, stBase] at *
      rw [if_congr hc rfl rfl, e1, e2]
      split_ifs at * <;> dsimp only at * <;> omega
    | face n =>
      simp only [stF, stBase] at *
      rw [if_congr hc rfl rfl, if_pos ht', e1, e2]
      rw [if_pos ht] at h3
      split_ifs at * <;> first | contradiction | (dsimp only at * <;> omega)
  · have ht' : ¬ 1 < tot D t := fun h => ht (h1.1.2 h)
    obtain ⟨e0, _, e3⟩ := h1.2 ht
    have hcl : ¬ (t.val < k ∧ 1 < tot D t) := fun h => ht' h.2
    have hcl' : ¬ (t.val < k ∧ 1 < D.gnx C t) := fun h => ht h.2
    cases f with
    | cell v =>
      simp only [stF, stBase, if_neg hcl, if_neg hcl', lo_one ht, lo_one ht', hi_one ht, hi_one ht'] at *
      omega
    | face n =>
      simp only [stF, stBase, if_neg hcl, if_neg hcl', if_neg ht, if_neg ht', lo_one ht, lo_one ht', hi_one ht, hi_one ht'] at *
      split_ifs at * <;> omega

end

/-- The Grids of the Domain hold the values of the single Grid, as far as direction `k`. -/
def Agree {V : Type} (c : Cfg) (D : Dom) (s : Coord → Grid V) (G : Grid V) (k : Nat) : Prop :=
  ∀ C, D.Has C → ∀ f : Fld, f.In c → ∀ y, InR (stF c (D.gnx C) k f) y → f.val (s C) y = f.val G (gl D C y)

theorem gl_setD (D : Dom) (C : Coord) (y : Idx) (d : Fin 3) (j : Int) :
    gl D C (setD y d j) = setD (gl D C y) d (j + disp D d (C d)) := by
  funext t
  by_cases e : t = d
  · subst e; simp only [gl, setD_self]
  · simp only [gl, setD_ne _ _ _ _ e]

theorem gl_nbr (D : Dom) (C x : Coord) (y : Idx) (d : Fin 3) (hx : ∀ t, t ≠ d → x t = C t) (j : Int) :
    gl D x (setD y d j) = setD (gl D C y) d (j + disp D d (x d)) := by
  funext t
  by_cases e : t = d
  · subst e; simp only [gl, setD_self]
  · simp only [gl, setD_ne _ _ _ _ e, hx t e]

theorem sgn_periodic {V : Type} [Neg V] (d : Fin 3) (f : Fld) (x : V) : sgn .periodic d f x = x := by
  cases f with
  | cell v => cases v <;> rfl
  | face n =>
    simp only [sgn, signN, signT]
    split_ifs with h h2 h3
    · cases h2
    · rfl
    · cases h3
    · rfl

/-- The step: agreement survives one direction. -/
theorem agree_step {V : Type} [Neg V] [Zero V] {c : Cfg} {sz : Nat} {D : Dom} (hD : DomOk c sz D) (d : Fin 3)
    (s s' : Coord → Grid V) (G G' : Grid V) (hnx : ∀ C, D.Has C → (s C).nx = D.gnx C) (hG : G.nx = tot D)
    (hA : Agree c D s G d.val)
    (hs : ∀ C, D.Has C → 1 < D.gnx C d → Both c d (srcL D d C s) (srcR D d C s) (s C) (s' C))
    (hs0 : ∀ C, D.Has C → ¬ 1 < D.gnx C d → s' C = s C)
    (hg : 1 < tot D d → Both c d (.bc (D.bcIn d)) (.bc (D.bcOut d)) G G')
    (hg0 : ¬ 1 < tot D d → G' = G) : Agree c D s' G' (d.val + 1) := by
  intro C hC f hf y hy
  have hdim := hD.dims C hC
  have hgt := gnx_tot hD hC d
  by_cases hd : 1 < D.gnx C d
  swap
  · rw [hs0 C hC hd, hg0 (fun h => hd (hgt.1.2 h))]
    rw [stF_one hd] at hy
    exact hA C hC f hf y hy
  have hd' : 1 < tot D d := hgt.1.1 hd
  have hdt := dims_tot hD hC
  have hB := (hs C hC hd).val f hf y (by rw [hnx C hC]; exact inR_trIn hdim hd hy)
  have hBG := (hg hd').val f hf (gl D C y) (by rw [hG]; exact inR_trIn hdt hd' (inR_gl hD hC hy))
  rw [hnx C hC] at hB
  rw [hG] at hBG
  have hyd := hy d
  rw [stF_d1 hd] at hyd
  have hz := hdim.zones d
  have htg := tot_ge hD hC d
  have hng := hdim.ghosts
  have el := lo_pos (c := c) hd
  have eh := hi_pos (c := c) hd
  have eL := lo_pos (c := c) hd'
  have eH := hi_pos (c := c) hd'
  have ez : gl D C y d = y d + disp D d (C d) := rfl
  have hCd := hC d
  rw [hB, hBG]
  have hIH : ∀ x : Coord, D.Has x → (∀ t, t ≠ d → x t = C t) → 1 < D.gnx x d → ∀ j, lo c (D.gnx x) d ≤ j →
      (j ≤ hi c (D.gnx x) d ∨ (f.Nrm d ∧ j ≤ hi c (D.gnx x) d + 1)) →
      f.val (s x) (setD y d j) = f.val G (setD (gl D C y) d (j + disp D d (x d))) := by
    intro x hx heq hdx j h1 h2
    rw [hA x hx f hf (setD y d j) (inR_setD (nx := D.gnx C) (by intro t ht; unfold Dom.gnx; rw [heq t ht]) hdx hy h1 h2),
      gl_nbr D C x y d heq]
  -- position of `y d`
  rcases lt_or_ge (y d) (lo c (D.gnx C) d) with hlow | hlow
  · -- inner ghost zones
    have gh : Ghost c .inner d f (lo c (D.gnx C) d) (hi c (D.gnx C) d) (y d) := by
      by_cases hn : f.Nrm d
      · rw [if_pos hn] at hyd; exact Or.inl ⟨hn, by simp only [fdepth]; omega, by simp only [fdepth]; omega⟩
      · rw [if_neg hn] at hyd; exact Or.inr ⟨hn, by simp only [depth]; omega, by simp only [depth]; omega⟩
    rw [if_neg (by rintro ⟨_, _, h⟩; omega), if_neg (by rintro ⟨_, _, h⟩; omega), if_pos gh]
    unfold srcL
    by_cases h0 : C d > 0
    · have hleft : left D d C = some (setD C d (C d - 1)) := if_pos h0
      obtain ⟨hN, hx, _, heq⟩ := left_spec hD hC hleft
      have hdx : 1 < D.gnx (setD C d (C d - 1)) d := hD.split d hN _ (hx d)
      have hzx := (hD.dims _ hx).zones d
      rw [hleft]
      simp only [Src.val]
      have esh : shift .inner (lo c (s C).nx d) (hi c (s C).nx d) (lo c (s (setD C d (C d - 1))).nx d) (hi c (s (setD C d (C d - 1))).nx d) =
          D.gnx (setD C d (C d - 1)) d := by
        rw [hnx C hC, hnx _ hx, lo_pos hd, hi_pos hd, hi_pos hdx]; simp only [shift]; omega
      have hdisp : disp D d (C d) = disp D d (C d - 1) + D.gnx (setD C d (C d - 1)) d := by
        have e1 : C d = (C d - 1) + 1 := by omega
        have e2 : D.gnx (setD C d (C d - 1)) d = D.nx d (C d - 1) := by unfold Dom.gnx; rw [setD_self]
        rw [e2]; conv_lhs => rw [e1]
        rfl
      have el' := lo_pos (c := c) hdx
      have eh' := hi_pos (c := c) hdx
      rw [esh, hIH _ hx heq hdx _ (by by_cases hn : f.Nrm d
                                      · rw [if_pos hn] at hyd; dsimp only at hyd; omega
                                      · rw [if_neg hn] at hyd; dsimp only at hyd; omega) (Or.inl (by omega))]
      rw [setD_self, show y d + (D.gnx (setD C d (C d - 1)) d : Int) + (disp D d (C d - 1) : Nat) = gl D C y d by rw [ez]; omega, setD_eta]
      rw [if_neg, if_neg, if_neg, if_neg]
      · intro h; have := ghost_outer_gt f _ h; omega
      · intro h; have := ghost_inner_lt f _ h
        by_cases hn : f.Nrm d
        · rw [if_pos hn] at hyd; dsimp only at hyd; omega
        · rw [if_neg hn] at hyd; dsimp only at hyd; omega
      · rintro ⟨_, _, h⟩; omega
      · rintro ⟨hn, _, h⟩; rw [if_pos hn] at hyd; dsimp only at hyd; omega
    · have hC0 : C d = 0 := by omega
      have hdisp : disp D d (C d) = 0 := by rw [hC0]; rfl
      have ghG : Ghost c .inner d f (lo c (tot D) d) (hi c (tot D) d) (gl D C y d) := by
        rcases gh with ⟨hn, h1, h2⟩ | ⟨hn, h1, h2⟩
        · exact Or.inl ⟨hn, by simp only [fdepth] at *; omega, by simp only [fdepth] at *; omega⟩
        · exact Or.inr ⟨hn, by simp only [depth] at *; omega, by simp only [depth] at *; omega⟩
      rw [if_neg (by rintro ⟨_, _, h⟩; omega), if_neg (by rintro ⟨_, _, h⟩; omega), if_pos ghG]
      by_cases hp : D.bcIn d = .periodic ∧ D.NG d > 1
      · have hleft : left D d C = some (setD C d (D.NG d - 1)) := by unfold left; rw [if_neg h0, if_pos hp]
        obtain ⟨hN, hx, _, heq⟩ := left_spec hD hC hleft
        have hdx : 1 < D.gnx (setD C d (D.NG d - 1)) d := hD.split d hN _ (hx d)
        have hzx := (hD.dims _ hx).zones d
        rw [hleft]
        simp only [Src.val]
        have esh : shift .inner (lo c (s C).nx d) (hi c (s C).nx d) (lo c (s (setD C d (D.NG d - 1))).nx d) (hi c (s (setD C d (D.NG d - 1))).nx d) =
            D.gnx (setD C d (D.NG d - 1)) d := by
          rw [hnx C hC, hnx _ hx, lo_pos hd, hi_pos hd, hi_pos hdx]; simp only [shift]; omega
        have hdl : tot D d = disp D d (D.NG d - 1) + D.gnx (setD C d (D.NG d - 1)) d := by
          have e1 : D.NG d = (D.NG d - 1) + 1 := by omega
          have e2 : D.gnx (setD C d (D.NG d - 1)) d = D.nx d (D.NG d - 1) := by unfold Dom.gnx; rw [setD_self]
          rw [e2]; unfold tot; conv_lhs => rw [e1]
          rfl
        have el' := lo_pos (c := c) hdx
        have eh' := hi_pos (c := c) hdx
        rw [esh, hIH _ hx heq hdx _ (by by_cases hn : f.Nrm d
                                        · rw [if_pos hn] at hyd; dsimp only at hyd; omega
                                        · rw [if_neg hn] at hyd; dsimp only at hyd; omega) (Or.inl (by omega))]
        rw [hp.1, sgn_periodic, setD_self, hG]
        congr 2
        unfold srcJ
        simp only [srcF, srcI, depth]
        split_ifs <;> omega
      · have hleft : left D d C = none := by unfold left; rw [if_neg h0, if_neg hp]
        rw [hleft]
        simp only [Src.val]
        have hsj := srcJ_in hdim hd (hD.kin d) .inner f _ gh
        rw [hnx C hC, hG, hIH C hC (fun _ _ => rfl) hd _ hsj.1 (Or.inl hsj.2.1)]
        congr 3
        rw [ez, hdisp]
        have htot : D.bcIn d = .periodic → tot D d = D.gnx C d := by
          intro hper
          have : D.NG d = 1 := by
            by_contra hne
            exact hp ⟨hper, by omega⟩
          rw [tot_one this]; unfold Dom.gnx; rw [hC0]
        unfold srcJ
        cases hk : D.bcIn d <;> simp only [srcF, srcI, depth] <;> split_ifs <;> first | exact absurd hk (hD.kin d) | (have := htot hk; omega) | omega
  · by_cases hhigh : hi c (D.gnx C) d < y d ∧ (f.Nrm d → hi c (D.gnx C) d + 1 < y d)
    · -- outer ghost zones
      have gh : Ghost c .outer d f (lo c (D.gnx C) d) (hi c (D.gnx C) d) (y d) := by
        by_cases hn : f.Nrm d
        · rw [if_pos hn] at hyd; have := hhigh.2 hn; dsimp only at hyd
          exact Or.inl ⟨hn, by simp only [fdepth]; omega, by simp only [fdepth]; omega⟩
        · rw [if_neg hn] at hyd; dsimp only at hyd; exact Or.inr ⟨hn, by simp only [depth]; omega, by simp only [depth]; omega⟩
      rw [if_neg (by rintro ⟨_, _, h⟩; omega), if_neg (by rintro ⟨hn, _, h⟩; have := hhigh.2 hn; omega),
        if_neg (fun h => by have := ghost_inner_lt f _ h; omega), if_pos gh]
      have hhi : y d ≤ hi c (D.gnx C) d + c.ng := by
        split_ifs at hyd <;> exact hyd.2
      unfold srcR
      by_cases h0 : C d + 1 < D.NG d
      · have hright : right D d C = some (setD C d (C d + 1)) := if_pos h0
        obtain ⟨hN, hx, _, heq⟩ := right_spec hD hC hright
        have hdx : 1 < D.gnx (setD C d (C d + 1)) d := hD.split d hN _ (hx d)
        have hzx := (hD.dims _ hx).zones d
        have htx := tot_ge hD hx d
        rw [setD_self] at htx
        rw [hright]
        simp only [Src.val]
        have esh : shift .outer (lo c (s C).nx d) (hi c (s C).nx d) (lo c (s (setD C d (C d + 1))).nx d) (hi c (s (setD C d (C d + 1))).nx d) =
            -(D.gnx C d : Int) := by
          rw [hnx C hC, hnx _ hx, lo_pos hd, hi_pos hd, lo_pos hdx]; simp only [shift]; omega
        have hdisp : disp D d (C d + 1) = disp D d (C d) + D.gnx C d := rfl
        have el' := lo_pos (c := c) hdx
        have eh' := hi_pos (c := c) hdx
        rw [esh, hIH _ hx heq hdx _ (by omega) (Or.inl (by omega))]
        rw [setD_self, show y d + -(D.gnx C d : Int) + (disp D d (C d + 1) : Nat) = gl D C y d by rw [ez]; omega, setD_eta]
        rw [if_neg, if_neg, if_neg, if_neg]
        · intro h; have := ghost_outer_gt f _ h
          by_cases hn : f.Nrm d
          · have := hhigh.2 hn; have := this; omega
          · omega
        · intro h; have := ghost_inner_lt f _ h; omega
        · rintro ⟨hn, _, h⟩; omega
        · rintro ⟨hn, _, h⟩; omega
      · have hC0 : C d + 1 = D.NG d := by omega
        have hdisp : disp D d (C d) + D.gnx C d = tot D d := by unfold tot; rw [← hC0]; rfl
        have ghG : Ghost c .outer d f (lo c (tot D) d) (hi c (tot D) d) (gl D C y d) := by
          rcases gh with ⟨hn, h1, h2⟩ | ⟨hn, h1, h2⟩
          · exact Or.inl ⟨hn, by simp only [fdepth] at *; omega, by simp only [fdepth] at *; omega⟩
          · exact Or.inr ⟨hn, by simp only [depth] at *; omega, by simp only [depth] at *; omega⟩
        have hgG := ghost_outer_gt f _ ghG
        rw [if_neg (by rintro ⟨_, _, h⟩; omega), if_neg (by rintro ⟨hn, _, h⟩; have := hgG.2 hn; omega),
          if_neg (fun h => by have := ghost_inner_lt f _ h; omega), if_pos ghG]
        by_cases hp : D.bcOut d = .periodic ∧ D.NG d > 1
        · have hright : right D d C = some (setD C d 0) := by unfold right; rw [if_neg h0, if_pos hp]
          obtain ⟨hN, hx, _, heq⟩ := right_spec hD hC hright
          have hdx : 1 < D.gnx (setD C d 0) d := hD.split d hN _ (hx d)
          have hzx := (hD.dims _ hx).zones d
          rw [hright]
          simp only [Src.val]
          have esh : shift .outer (lo c (s C).nx d) (hi c (s C).nx d) (lo c (s (setD C d 0)).nx d) (hi c (s (setD C d 0)).nx d) =
              -(D.gnx C d : Int) := by
            rw [hnx C hC, hnx _ hx, lo_pos hd, hi_pos hd, lo_pos hdx]; simp only [shift]; omega
          have el' := lo_pos (c := c) hdx
          have eh' := hi_pos (c := c) hdx
          rw [esh, hIH _ hx heq hdx _ (by omega) (Or.inl (by omega))]
          rw [hp.1, sgn_periodic, setD_self, hG]
          congr 2
          unfold srcJ
          simp only [srcF, srcI, depth, disp]
          split_ifs <;> omega
        · have hright : right D d C = none := by unfold right; rw [if_neg h0, if_neg hp]
          rw [hright]
          simp only [Src.val]
          have hsj := srcJ_in hdim hd (hD.kout d) .outer f _ gh
          rw [hnx C hC, hG, hIH C hC (fun _ _ => rfl) hd _ hsj.1 (Or.inl hsj.2.1)]
          congr 3
          rw [ez]
          have htot : D.bcOut d = .periodic → disp D d (C d) = 0 := by
            intro hper
            have : D.NG d = 1 := by
              by_contra hne
              exact hp ⟨hper, by omega⟩
            have : C d = 0 := by omega
            rw [this]; rfl
          unfold srcJ
          cases hk : D.bcOut d <;> simp only [srcF, srcI, depth] <;> split_ifs <;> first | exact absurd hk (hD.kout d) | (have := htot hk; omega) | omega
    · -- active zones
      have hact : y d ≤ hi c (D.gnx C) d ∨ (f.Nrm d ∧ y d ≤ hi c (D.gnx C) d + 1) := by
        by_cases h1 : y d ≤ hi c (D.gnx C) d
        · exact Or.inl h1
        · right
          by_contra hcon
          apply hhigh
          refine ⟨by omega, fun hn => ?_⟩
          by_contra hh
          exact hcon ⟨hn, by omega⟩
      have hval := hIH C hC (fun _ _ => rfl) hd (y d) hlow hact
      rw [setD_eta, show y d + (disp D d (C d) : Nat) = gl D C y d from rfl, setD_eta] at hval
      have ng1 : ¬ Ghost c .inner d f (lo c (D.gnx C) d) (hi c (D.gnx C) d) (y d) := fun h => by
        have := ghost_inner_lt f _ h; omega
      have ng2 : ¬ Ghost c .outer d f (lo c (D.gnx C) d) (hi c (D.gnx C) d) (y d) := fun h => by
        have := ghost_outer_gt f _ h
        rcases hact with h1 | ⟨hn, h1⟩
        · omega
        · have := this.2 hn; omega
      have ng3 : ¬ Ghost c .inner d f (lo c (tot D) d) (hi c (tot D) d) (gl D C y d) := fun h => by
        have := ghost_inner_lt f _ h; omega
      have ng4 : ¬ Ghost c .outer d f (lo c (tot D) d) (hi c (tot D) d) (gl D C y d) := fun h => by
        have := ghost_outer_gt f _ h
        rcases hact with h1 | ⟨hn, h1⟩
        · omega
        · have := this.2 hn; omega
      rw [if_neg ng1, if_neg ng2, if_neg ng3, if_neg ng4, hval]
      have zl : (f.Nrm d ∧ (srcL D d C s).Zeroes ∧ y d = lo c (D.gnx C) d) ↔
          (f.Nrm d ∧ (Src.bc (V := V) (D.bcIn d)).Zeroes ∧ gl D C y d = lo c (tot D) d) := by
        constructor
        · rintro ⟨hn, hz, he⟩
          unfold srcL at hz
          cases hl : left D d C with
          | some l => rw [hl] at hz; exact absurd hz (by simp [Src.Zeroes])
          | none =>
            rw [hl] at hz
            have hC0 : C d = 0 := by
              by_contra hne
              have : left D d C = some (setD C d (C d - 1)) := if_pos (by omega)
              rw [this] at hl; cases hl
            refine ⟨hn, hz, ?_⟩
            rw [ez, hC0]; simp only [disp]; omega
        · rintro ⟨hn, hz, he⟩
          have hC0 : C d = 0 := by
            by_contra hne
            have e1 : C d = (C d - 1) + 1 := by omega
            have h3 : 1 < D.nx d (C d - 1) := hD.split d (by omega) _ (by omega)
            have h4 : disp D d (C d) = disp D d (C d - 1) + D.nx d (C d - 1) := by
              conv_lhs => rw [e1]
              rfl
            omega
          have hleft : left D d C = none := by
            unfold left
            rw [if_neg (by omega), if_neg]
            rintro ⟨hp, _⟩
            rw [show D.bcIn d = .reflect from hz] at hp; cases hp
          refine ⟨hn, by unfold srcL; rw [hleft]; exact hz, ?_⟩
          rw [ez, hC0] at he; simp only [disp] at he; omega
      have zr : (f.Nrm d ∧ (srcR D d C s).Zeroes ∧ y d = hi c (D.gnx C) d + 1) ↔
          (f.Nrm d ∧ (Src.bc (V := V) (D.bcOut d)).Zeroes ∧ gl D C y d = hi c (tot D) d + 1) := by
        constructor
        · rintro ⟨hn, hz, he⟩
          unfold srcR at hz
          cases hl : right D d C with
          | some l => rw [hl] at hz; exact absurd hz (by simp [Src.Zeroes])
          | none =>
            rw [hl] at hz
            have hC0 : C d + 1 = D.NG d := by
              by_contra hne
              have : right D d C = some (setD C d (C d + 1)) := if_pos (by omega)
              rw [this] at hl; cases hl
            have hdisp : disp D d (C d) + D.gnx C d = tot D d := by unfold tot; rw [← hC0]; rfl
            refine ⟨hn, hz, ?_⟩
            omega
        · rintro ⟨hn, hz, he⟩
          have hC0 : C d + 1 = D.NG d := by
            by_contra hne
            have h3 : 1 < D.nx d (C d + 1) := hD.split d (by omega) _ (by omega)
            have h4 := disp_add_le (D := D) (t := d) (i := C d + 1) (j := D.NG d) (by omega)
            have h5 : disp D d (C d + 1) = disp D d (C d) + D.gnx C d := rfl
            have h6 : tot D d = disp D d (D.NG d) := rfl
            omega
          have hdisp : disp D d (C d) + D.gnx C d = tot D d := by unfold tot; rw [← hC0]; rfl
          have hright : right D d C = none := by
            unfold right
            rw [if_neg (by omega), if_neg]
            rintro ⟨hp, _⟩
            rw [show D.bcOut d = .reflect from hz] at hp; cases hp
          refine ⟨hn, by unfold srcR; rw [hright]; exact hz, ?_⟩
          omega
      exact if_congr zl rfl (if_congr zr rfl rfl)

end Athena.Bvals
