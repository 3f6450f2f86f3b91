import Verif.Bvals.Glue
import Mathlib.Algebra.Group.Basic

/-! The three directions together. -/

namespace Athena.Bvals

/-- One direction on all Grids. -/
theorem stage_all {V : Type} [Neg V] [Zero V] {c : Cfg} {sz : Nat} {D : Dom} (hD : DomOk c sz D) (o : Coord → Bool) (d : Fin 3)
    (st : Coord → Res (Grid V)) (s : Coord → Grid V) (hst : ∀ C, D.Has C → st C = .ok (s C))
    (hnx : ∀ C, D.Has C → (s C).nx = D.gnx C) :
    ∃ s' : Coord → Grid V, ∀ C, D.Has C → stage c sz D (o C) d st C = .ok (s' C) ∧ (s' C).nx = D.gnx C ∧
      (1 < D.gnx C d → Both c d (srcL D d C s) (srcR D d C s) (s C) (s' C)) ∧ (¬ 1 < D.gnx C d → s' C = s C) := by
  have : ∀ C, ∃ g', D.Has C → stage c sz D (o C) d st C = .ok g' ∧ g'.nx = D.gnx C ∧
      (1 < D.gnx C d → Both c d (srcL D d C s) (srcR D d C s) (s C) g') ∧ (¬ 1 < D.gnx C d → g' = s C) := by
    intro C
    by_cases hC : D.Has C
    · by_cases hd : 1 < D.gnx C d
      · obtain ⟨g', e, hB⟩ := stage_ok hD (o C) d st s hst hnx hC hd
        exact ⟨g', fun _ => ⟨e, hB.nx.trans (hnx C hC), fun _ => hB, fun h => absurd hd h⟩⟩
      · refine ⟨s C, fun _ => ⟨?_, hnx C hC, fun h => absurd h hd, fun _ => rfl⟩⟩
        unfold stage
        rw [hst C hC, Res.bind_ok, if_neg (by rw [hnx C hC]; exact hd)]
    · exact ⟨s C, fun h => absurd h hC⟩
  choose s' hs' using this
  exact ⟨s', fun C hC => hs' C hC⟩

/-- All directions on all Grids, with the states in between. -/
theorem bvals_all {V : Type} [Neg V] [Zero V] {c : Cfg} {sz : Nat} {D : Dom} (hD : DomOk c sz D) (o : Fin 3 → Coord → Bool)
    (s : Coord → Grid V) (hnx : ∀ C, D.Has C → (s C).nx = D.gnx C) :
    ∃ σ : Nat → Coord → Grid V, σ 0 = s ∧ (∀ C, D.Has C → bvals c sz D o s C = .ok (σ 3 C)) ∧
      ∀ d : Fin 3, ∀ C, D.Has C → (σ d.val C).nx = D.gnx C ∧ (σ (d.val + 1) C).nx = D.gnx C ∧
        (1 < D.gnx C d → Both c d (srcL D d C (σ d.val)) (srcR D d C (σ d.val)) (σ d.val C) (σ (d.val + 1) C)) ∧
        (¬ 1 < D.gnx C d → σ (d.val + 1) C = σ d.val C) := by
  obtain ⟨s1, h1⟩ := stage_all hD (o 0) 0 (fun C => .ok (s C)) s (fun _ _ => rfl) hnx
  obtain ⟨s2, h2⟩ := stage_all hD (o 1) 1 (fun C => stage c sz D (o 0 C) 0 (fun C => .ok (s C)) C) s1 (fun C hC => (h1 C hC).1) (fun C hC => (h1 C hC).2.1)
  obtain ⟨s3, h3⟩ := stage_all hD (o 2) 2 (fun C => stage c sz D (o 1 C) 1 (fun C => stage c sz D (o 0 C) 0 (fun C => .ok (s C)) C) C)
    s2 (fun C hC => (h2 C hC).1) (fun C hC => (h2 C hC).2.1)
  refine ⟨fun k => if k = 0 then s else if k = 1 then s1 else if k = 2 then s2 else s3, rfl, fun C hC => (h3 C hC).1, ?_⟩
  intro d C hC
  have : d = 0 ∨ d = 1 ∨ d = 2 := by fin_cases d <;> decide
  rcases this with rfl | rfl | rfl
  · exact ⟨hnx C hC, (h1 C hC).2⟩
  · exact ⟨(h1 C hC).2.1, (h2 C hC).2⟩
  · exact ⟨(h2 C hC).2.1, (h3 C hC).2⟩

theorem has_single (D : Dom) : (single D).Has (fun _ => 0) := fun _ => Nat.one_pos

theorem gnx_single (D : Dom) : (single D).gnx (fun _ => 0) = tot D := rfl

theorem src_single {V : Type} (D : Dom) (d : Fin 3) (s : Coord → Grid V) :
    srcL (single D) d (fun _ => 0) s = .bc (D.bcIn d) ∧ srcR (single D) d (fun _ => 0) s = .bc (D.bcOut d) := by
  have e1 : left (single D) d (fun _ => 0) = none := by unfold left single; simp
  have e2 : right (single D) d (fun _ => 0) = none := by unfold right single; simp
  unfold srcL srcR
  rw [e1, e2]
  exact ⟨rfl, rfl⟩

theorem agree_all {V : Type} [Neg V] [Zero V] {c : Cfg} {sz sz' : Nat} {D : Dom} (hD : DomOk c sz D) (hD1 : DomOk c sz' (single D))
    (o o' : Fin 3 → Coord → Bool) (s : Coord → Grid V) (G : Grid V) (hnx : ∀ C, D.Has C → (s C).nx = D.gnx C)
    (hG : G.nx = tot D) (hA : Agree c D s G 0) :
    ∃ s' G', (∀ C, D.Has C → bvals c sz D o s C = .ok (s' C)) ∧ bvals c sz' (single D) o' (fun _ => G) (fun _ => 0) = .ok G' ∧
      Agree c D s' G' 3 := by
  obtain ⟨σ, e0, e3, hσ⟩ := bvals_all hD o s hnx
  obtain ⟨τ, f0, f3, hτ⟩ := bvals_all hD1 o' (fun _ => G) (by
    intro C hC
    have : C = fun _ => 0 := by funext t; have := hC t; simp only [single] at this; omega
    subst this; exact hG)
  refine ⟨σ 3, τ 3 (fun _ => 0), e3, f3 _ (has_single D), ?_⟩
  have step : ∀ d : Fin 3, Agree c D (σ d.val) (τ d.val (fun _ => 0)) d.val →
      Agree c D (σ (d.val + 1)) (τ (d.val + 1) (fun _ => 0)) (d.val + 1) := by
    intro d hAd
    have ht := hτ d (fun _ => 0) (has_single D)
    rw [gnx_single, (src_single D d _).1, (src_single D d _).2] at ht
    exact agree_step hD d _ _ _ _ (fun C hC => (hσ d C hC).1) ht.1 hAd (fun C hC => (hσ d C hC).2.2.1)
      (fun C hC => (hσ d C hC).2.2.2) ht.2.2.1 ht.2.2.2
  have a0 : Agree c D (σ 0) (τ 0 (fun _ => 0)) 0 := by rw [e0, f0]; exact hA
  have a1 := step 0 a0
  have a2 := step 1 a1
  exact step 2 a2

theorem nrm_iff {f : Fld} {d : Fin 3} : f.Nrm d ↔ f = .face d := Iff.rfl

theorem extra_active {nx : Fin 3 → Nat} {f : Fld} {t : Fin 3} (h : 1 < nx t) : extra nx f t = if f.Nrm t then 1 else 0 := by
  unfold extra
  by_cases e : f = .face t
  · rw [if_pos ⟨e, h⟩, if_pos (show f.Nrm t from e)]
  · rw [if_neg (fun hh => e hh.1), if_neg (show ¬ f.Nrm t from e)]

theorem extra_one {nx : Fin 3 → Nat} {f : Fld} {t : Fin 3} (h : ¬ 1 < nx t) : extra nx f t = 0 :=
  if_neg (fun hh => h hh.2)

theorem stF_full {c : Cfg} {nx : Fin 3 → Nat} (f : Fld) (t : Fin 3) (k : Nat) (hk : t.val < k) :
    stF c nx k f t = (extra nx f t, size c nx t - 1) := by
  by_cases h : 1 < nx t
  · rw [extra_active h, size_pos h]
    cases f with
    | cell v =>
      rw [if_neg (cell_not_nrm v t)]
      simp only [stF, stBase, if_pos (And.intro hk h)]
      rw [lo_pos h, hi_pos h]
      refine Prod.ext ?_ ?_ <;> dsimp only <;> omega
    | face n =>
      by_cases e : t = n
      · rw [if_pos (face_nrm.2 e.symm)]
        simp only [stF, if_pos e, if_pos (And.intro hk h)]
        rw [lo_pos h, hi_pos h]
        refine Prod.ext ?_ ?_ <;> dsimp only <;> omega
      · rw [if_neg (fun hh => e (face_nrm.1 hh).symm)]
        simp only [stF, if_neg e, stBase, if_pos (And.intro hk h)]
        rw [lo_pos h, hi_pos h]
        refine Prod.ext ?_ ?_ <;> dsimp only <;> omega
  · have hc : ¬ (t.val < k ∧ 1 < nx t) := fun hh => h hh.2
    rw [extra_one h, size_one h]
    cases f with
    | cell v => simp only [stF, stBase, if_neg hc, lo_one h, hi_one h]; rfl
    | face n =>
      by_cases e : t = n
      · simp only [stF, stBase, if_pos e, if_neg hc, if_neg h, lo_one h, hi_one h]; rfl
      · simp only [stF, stBase, if_neg e, if_neg hc, lo_one h, hi_one h]; rfl

theorem stF_none {c : Cfg} {nx : Fin 3 → Nat} (f : Fld) (t : Fin 3) (k : Nat) (hk : ¬ t.val < k) :
    stF c nx k f t = (lo c nx t, hi c nx t + extra nx f t) := by
  have hc : ¬ (t.val < k ∧ 1 < nx t) := fun hh => hk hh.1
  by_cases h : 1 < nx t
  · rw [extra_active h]
    cases f with
    | cell v =>
      rw [if_neg (cell_not_nrm v t)]
      simp only [stF, stBase, if_neg hc]
      rw [add_zero]
    | face n =>
      by_cases e : t = n
      · rw [if_pos (face_nrm.2 e.symm)]
        simp only [stF, if_pos e, if_neg hc, if_pos h]
      · rw [if_neg (fun hh => e (face_nrm.1 hh).symm)]
        simp only [stF, if_neg e, stBase, if_neg hc]
        rw [add_zero]
  · rw [extra_one h]
    cases f with
    | cell v => simp only [stF, stBase, if_neg hc, add_zero]
    | face n =>
      by_cases e : t = n
      · simp only [stF, stBase, if_pos e, if_neg hc, if_neg h, add_zero]
      · simp only [stF, stBase, if_neg e, if_neg hc, add_zero]

theorem active_iff {c : Cfg} {nx : Fin 3 → Nat} {f : Fld} {y : Idx} : InR (stF c nx 0 f) y ↔ Active c nx f y := by
  unfold InR Active
  refine forall_congr' fun t => ?_
  rw [stF_none f t 0 (by omega)]

theorem stored_iff {c : Cfg} {nx : Fin 3 → Nat} {f : Fld} {y : Idx} : InR (stF c nx 3 f) y ↔ Stored c nx f y := by
  unfold InR Stored
  refine forall_congr' fun t => ?_
  rw [stF_full f t 3 (by omega)]
  dsimp only
  omega

/-! ### The images -/

theorem sgn_odd {V : Type} [Neg V] (k : Kind) (t : Fin 3) (f : Fld) (v : V) [Decidable (Odd k t f)] :
    sgn k t f v = if Odd k t f then -v else v := by
  have hflip : ∀ w : Var, flips k t w = true ↔ Odd k t (.cell w) := by
    intro w
    cases k <;> cases w <;> simp [flips, Odd]
  cases f with
  | cell w => exact if_congr (hflip w) rfl rfl
  | face n =>
    simp only [sgn, signN, signT]
    by_cases e : n = t
    · rw [if_pos e]
      refine if_congr ?_ rfl rfl
      subst e
      cases k <;> simp [Odd]
    · rw [if_neg e]
      refine if_congr ?_ rfl rfl
      cases k <;> simp [Odd, e]

theorem imgJ_inner {c : Cfg} {nx : Fin 3 → Nat} {d : Fin 3} (hd : 1 < nx d) (f : Fld) (kin kout : Kind) (hk : kin ≠ .later) (j : Int)
    (h : j < lo c nx d) : imgJ kin kout (lo c nx d) (hi c nx d) (extra nx f d) (nx d) j =
      srcJ kin .inner d f (lo c nx d) (hi c nx d) j := by
  unfold imgJ srcJ
  rw [if_pos h, extra_active hd]
  rw [lo_pos hd, hi_pos hd]
  cases kin <;> simp only [srcF, srcI, depth] <;> split_ifs <;> first | exact absurd rfl hk | omega

theorem imgJ_outer {c : Cfg} {nx : Fin 3 → Nat} {d : Fin 3} (hd : 1 < nx d) (f : Fld) (kin kout : Kind) (hk : kout ≠ .later) (j : Int)
    (h : hi c nx d + extra nx f d < j) : imgJ kin kout (lo c nx d) (hi c nx d) (extra nx f d) (nx d) j =
      srcJ kout .outer d f (lo c nx d) (hi c nx d) j := by
  have h0 : 0 ≤ extra nx f d := by unfold extra; split_ifs <;> omega
  have := lo_le_hi (c := c) hd
  unfold imgJ srcJ
  rw [if_neg (by omega), if_pos h, extra_active hd]
  rw [lo_pos hd, hi_pos hd]
  cases kout <;> simp only [srcF, srcI, depth] <;> split_ifs <;> first | exact absurd rfl hk | omega

theorem imgJ_mid {kin kout : Kind} {l h b n j : Int} (h1 : l ≤ j) (h2 : j ≤ h + b) : imgJ kin kout l h b n j = j := by
  unfold imgJ; rw [if_neg (by omega), if_neg (by omega)]

open Classical in
/-- The image in the directions below `k`. -/
noncomputable def imageK {V : Type} [Neg V] [Zero V] (c : Cfg) (kin kout : Fin 3 → Kind) (g : Grid V) (f : Fld) : (k : Nat) → k ≤ 3 → Idx → V
  | 0, _, y => f.val g y
  | k + 1, hk, y =>
    let d : Fin 3 := ⟨k, hk⟩
    if OnWall c kin kout g.nx f y d then 0
    else
      let v := imageK c kin kout g f k (by omega)
        (setD y d (imgJ (kin d) (kout d) (lo c g.nx d) (hi c g.nx d) (extra g.nx f d) (g.nx d) (y d)))
      if Minus c kin kout g.nx f y d then -v else v

open Classical in
theorem imageK_step {V : Type} [Neg V] [Zero V] {c : Cfg} {kin kout : Fin 3 → Kind} {g0 g g' : Grid V} (d : Fin 3)
    (hdim : Dims c g0.nx) (hkin : kin d ≠ .later) (hkout : kout d ≠ .later) (hnx : g.nx = g0.nx)
    (hA : ∀ f : Fld, f.In c → ∀ y, InR (stF c g0.nx d.val f) y → f.val g y = imageK c kin kout g0 f d.val (by omega) y)
    (hB : 1 < g0.nx d → Both c d (.bc (kin d)) (.bc (kout d)) g g') (hB0 : ¬ 1 < g0.nx d → g' = g) :
    ∀ f : Fld, f.In c → ∀ y, InR (stF c g0.nx (d.val + 1) f) y → f.val g' y = imageK c kin kout g0 f (d.val + 1) d.isLt y := by
  intro f hf y hy
  have ek : imageK c kin kout g0 f (d.val + 1) d.isLt y =
    if OnWall c kin kout g0.nx f y d then 0
    else
      if Minus c kin kout g0.nx f y d then
        - imageK c kin kout g0 f d.val (by omega)
        (setD y d (imgJ (kin d) (kout d) (lo c g0.nx d) (hi c g0.nx d) (extra g0.nx f d) (g0.nx d) (y d)))
      else imageK c kin kout g0 f d.val (by omega)
        (setD y d (imgJ (kin d) (kout d) (lo c g0.nx d) (hi c g0.nx d) (extra g0.nx f d) (g0.nx d) (y d))) := rfl
  rw [ek]
  by_cases hd : 1 < g0.nx d
  · have hBv := (hB hd).val f hf y (by rw [hnx]; exact inR_trIn hdim hd hy)
    rw [hnx] at hBv
    have hyd := hy d
    have hlh := lo_le_hi (c := c) hd
    rw [stF_full f d _ (by omega)] at hyd
    have hng := hdim.ghosts
    have ee := extra_active (f := f) hd
    have e0 : 0 ≤ extra g0.nx f d ∧ extra g0.nx f d ≤ 1 := by unfold extra; split_ifs <;> omega
    dsimp only at hyd
    rw [size_pos hd] at hyd
    have el := lo_pos (c := c) hd
    have eh := hi_pos (c := c) hd
    rw [hBv]
    rcases lt_or_ge (y d) (lo c g0.nx d) with hlow | hlow
    · have gh : Ghost c .inner d f (lo c g0.nx d) (hi c g0.nx d) (y d) := by
        by_cases hn : f.Nrm d
        · rw [if_pos hn] at ee; exact Or.inl ⟨hn, by simp only [fdepth]; omega, by simp only [fdepth]; omega⟩
        · rw [if_neg hn] at ee; exact Or.inr ⟨hn, by simp only [depth]; omega, by simp only [depth]; omega⟩
      have nw : ¬ OnWall c kin kout g0.nx f y d := by rintro ⟨_, _, ⟨_, h⟩ | ⟨_, h⟩⟩ <;> omega
      rw [if_neg (by rintro ⟨_, _, h⟩; omega), if_neg (by rintro ⟨_, _, h⟩; omega), if_pos gh, if_neg nw]
      simp only [Src.val]
      rw [hnx, sgn_odd, imgJ_inner hd f _ _ hkin _ hlow]
      have hsj := srcJ_in hdim hd hkin .inner f _ gh
      rw [hA f hf _ (inR_setD (fun _ _ => rfl) hd hy hsj.1 (Or.inl hsj.2.1))]
      refine if_congr ?_ rfl rfl
      unfold Minus
      constructor
      · exact fun h => Or.inl ⟨hlow, h⟩
      · rintro (⟨_, h⟩ | ⟨h, _⟩)
        · exact h
        · omega
    · rcases le_or_gt (y d) (hi c g0.nx d + extra g0.nx f d) with hhigh | hhigh
      · have ng1 : ¬ Ghost c .inner d f (lo c g0.nx d) (hi c g0.nx d) (y d) := fun h => by
          have := ghost_inner_lt f _ h; omega
        have ng2 : ¬ Ghost c .outer d f (lo c g0.nx d) (hi c g0.nx d) (y d) := fun h => by
          have := ghost_outer_gt f _ h
          by_cases hn : f.Nrm d
          · rw [if_pos hn] at ee; have := this.2 hn; omega
          · rw [if_neg hn] at ee; omega
        have nm : ¬ Minus c kin kout g0.nx f y d := by rintro (⟨h, _⟩ | ⟨h, _⟩) <;> omega
        rw [if_neg ng1, if_neg ng2, if_neg nm, imgJ_mid hlow hhigh, setD_eta]
        have hact : f.val g y = imageK c kin kout g0 f d.val (by omega) y := by
          apply hA f hf
          have := inR_setD (fun _ _ => rfl) hd hy (j := y d) hlow (by
            by_cases hn : f.Nrm d
            · rw [if_pos hn] at ee; exact Or.inr ⟨hn, by omega⟩
            · rw [if_neg hn] at ee; exact Or.inl (by omega))
          rwa [setD_eta] at this
        rw [hact]
        by_cases z1 : f.Nrm d ∧ Src.Zeroes (V := V) (.bc (kin d)) ∧ y d = lo c g0.nx d
        · rw [if_pos z1, if_pos ⟨z1.1, hd, Or.inl ⟨z1.2.1, z1.2.2⟩⟩]
        · rw [if_neg z1]
          by_cases z2 : f.Nrm d ∧ Src.Zeroes (V := V) (.bc (kout d)) ∧ y d = hi c g0.nx d + 1
          · rw [if_pos z2, if_pos ⟨z2.1, hd, Or.inr ⟨z2.2.1, z2.2.2⟩⟩]
          · rw [if_neg z2, if_neg]
            rintro ⟨a, _, ⟨b, e⟩ | ⟨b, e⟩⟩
            · exact z1 ⟨a, b, e⟩
            · exact z2 ⟨a, b, e⟩
      · have gh : Ghost c .outer d f (lo c g0.nx d) (hi c g0.nx d) (y d) := by
          by_cases hn : f.Nrm d
          · rw [if_pos hn] at ee; exact Or.inl ⟨hn, by simp only [fdepth]; omega, by simp only [fdepth]; omega⟩
          · rw [if_neg hn] at ee; exact Or.inr ⟨hn, by simp only [depth]; omega, by simp only [depth]; omega⟩
        have nw : ¬ OnWall c kin kout g0.nx f y d := by
          rintro ⟨hn, _, ⟨_, h⟩ | ⟨_, h⟩⟩
          · omega
          · rw [if_pos (show f.Nrm d from hn)] at ee; omega
        rw [if_neg (by rintro ⟨_, _, h⟩; omega), if_neg (by rintro ⟨hn, _, h⟩; rw [if_pos hn] at ee; omega),
          if_neg (fun h => by have := ghost_inner_lt f _ h; omega), if_pos gh, if_neg nw]
        simp only [Src.val]
        rw [hnx, sgn_odd, imgJ_outer hd f _ _ hkout _ hhigh]
        have hsj := srcJ_in hdim hd hkout .outer f _ gh
        rw [hA f hf _ (inR_setD (fun _ _ => rfl) hd hy hsj.1 (Or.inl hsj.2.1))]
        refine if_congr ?_ rfl rfl
        unfold Minus
        constructor
        · exact fun h => Or.inr ⟨hhigh, h⟩
        · rintro (⟨h, _⟩ | ⟨_, h⟩)
          · omega
          · exact h
  · have hyd := hy d
    rw [stF_full f d _ (by omega), extra_one hd, size_one hd] at hyd
    dsimp only at hyd
    rw [hB0 hd, if_neg (fun h => hd h.2.1), if_neg, imgJ_mid (by rw [lo_one hd]; omega) (by rw [hi_one hd, extra_one hd]; omega), setD_eta]
    · rw [stF_one hd] at hy; exact hA f hf y hy
    · rintro (⟨h, _⟩ | ⟨h, _⟩)
      · rw [lo_one hd] at h; omega
      · rw [hi_one hd, extra_one hd] at h; omega

open Classical in
theorem imageK_three {V : Type} [NegZeroClass V] (c : Cfg) (kin kout : Fin 3 → Kind) (g : Grid V) (f : Fld) (y : Idx) :
    imageK c kin kout g f 3 (Nat.le_refl 3) y = image c kin kout g f y := by
  have m0 : ∀ j2 j1 t, t = (0 : Fin 3) → (setD (setD y 2 j2) 1 j1) t = y t := by
    intro j2 j1 t ht; subst ht; rw [setD_ne _ _ _ _ (by decide), setD_ne _ _ _ _ (by decide)]
  have m1 : ∀ j2 t, t = (1 : Fin 3) → (setD y 2 j2) t = y t := by
    intro j2 t ht; subst ht; rw [setD_ne _ _ _ _ (by decide)]
  have w0 : ∀ j2 j1, (OnWall c kin kout g.nx f (setD (setD y 2 j2) 1 j1) 0 ↔ OnWall c kin kout g.nx f y 0) := by
    intro j2 j1; unfold OnWall; rw [m0 _ _ 0 rfl]
  have w1 : ∀ j2, (OnWall c kin kout g.nx f (setD y 2 j2) 1 ↔ OnWall c kin kout g.nx f y 1) := by
    intro j2; unfold OnWall; rw [m1 _ 1 rfl]
  have n0 : ∀ j2 j1, (Minus c kin kout g.nx f (setD (setD y 2 j2) 1 j1) 0 ↔ Minus c kin kout g.nx f y 0) := by
    intro j2 j1; unfold Minus; rw [m0 _ _ 0 rfl]
  have n1 : ∀ j2, (Minus c kin kout g.nx f (setD y 2 j2) 1 ↔ Minus c kin kout g.nx f y 1) := by
    intro j2; unfold Minus; rw [m1 _ 1 rfl]
  have hidx : ∀ j : Fin 3 → Int, setD (setD (setD y 2 (j 2)) 1 (j 1)) 0 (j 0) = j := by
    intro j
    funext t
    have : t = 0 ∨ t = 1 ∨ t = 2 := by fin_cases t <;> decide
    rcases this with rfl | rfl | rfl
    · rw [setD_self]
    · rw [setD_ne _ _ _ _ (by decide), setD_self]
    · rw [setD_ne _ _ _ _ (by decide), setD_ne _ _ _ _ (by decide), setD_self]
  have hj := hidx (fun t => imgJ (kin t) (kout t) (lo c g.nx t) (hi c g.nx t) (extra g.nx f t) (g.nx t) (y t))
  have hneg : ∀ (p : Prop) [Decidable p], (if p then -(0 : V) else 0) = 0 := by intro p _; rw [neg_zero, ite_self]
  have e3 : imageK c kin kout g f 3 (Nat.le_refl 3) y =
    if OnWall c kin kout g.nx f y 2 then 0 else
      if Minus c kin kout g.nx f y 2 then
        -imageK c kin kout g f 2 (by omega) (setD y 2 (imgJ (kin 2) (kout 2) (lo c g.nx 2) (hi c g.nx 2) (extra g.nx f 2) (g.nx 2) (y 2)))
      else imageK c kin kout g f 2 (by omega) (setD y 2 (imgJ (kin 2) (kout 2) (lo c g.nx 2) (hi c g.nx 2) (extra g.nx f 2) (g.nx 2) (y 2))) := rfl
  have e2 : ∀ z, imageK c kin kout g f 2 (by omega) z =
    if OnWall c kin kout g.nx f z 1 then 0 else
      if Minus c kin kout g.nx f z 1 then
        -imageK c kin kout g f 1 (by omega) (setD z 1 (imgJ (kin 1) (kout 1) (lo c g.nx 1) (hi c g.nx 1) (extra g.nx f 1) (g.nx 1) (z 1)))
      else imageK c kin kout g f 1 (by omega) (setD z 1 (imgJ (kin 1) (kout 1) (lo c g.nx 1) (hi c g.nx 1) (extra g.nx f 1) (g.nx 1) (z 1))) := fun _ => rfl
  have e1 : ∀ z, imageK c kin kout g f 1 (by omega) z =
    if OnWall c kin kout g.nx f z 0 then 0 else
      if Minus c kin kout g.nx f z 0 then
        -f.val g (setD z 0 (imgJ (kin 0) (kout 0) (lo c g.nx 0) (hi c g.nx 0) (extra g.nx f 0) (g.nx 0) (z 0)))
      else f.val g (setD z 0 (imgJ (kin 0) (kout 0) (lo c g.nx 0) (hi c g.nx 0) (extra g.nx f 0) (g.nx 0) (z 0))) := fun _ => rfl
  have ew : (∃ t, OnWall c kin kout g.nx f y t) ↔ (OnWall c kin kout g.nx f y 2 ∨ OnWall c kin kout g.nx f y 1 ∨ OnWall c kin kout g.nx f y 0) := by
    constructor
    · rintro ⟨t, h⟩
      have : t = 0 ∨ t = 1 ∨ t = 2 := by fin_cases t <;> decide
      rcases this with rfl | rfl | rfl
      · exact Or.inr (Or.inr h)
      · exact Or.inr (Or.inl h)
      · exact Or.inl h
    · rintro (h | h | h)
      · exact ⟨_, h⟩
      · exact ⟨_, h⟩
      · exact ⟨_, h⟩
  unfold image
  dsimp only
  rw [e3, e2, e1]
  simp only [w0, w1, n0, n1]
  rw [m0 _ _ 0 rfl, m1 _ 1 rfl, hj]
  by_cases h2 : OnWall c kin kout g.nx f y 2
  · rw [if_pos h2, if_pos (ew.2 (Or.inl h2))]
  · rw [if_neg h2]
    by_cases h1 : OnWall c kin kout g.nx f y 1
    · rw [if_pos h1, if_pos (ew.2 (Or.inr (Or.inl h1))), hneg]
    · rw [if_neg h1]
      by_cases h0 : OnWall c kin kout g.nx f y 0
      · rw [if_pos h0, if_pos (ew.2 (Or.inr (Or.inr h0))), hneg, hneg]
      · rw [if_neg h0, if_neg (c := ∃ t, OnWall c kin kout g.nx f y t)]
        rw [ew]; rintro (h | h | h)
        · exact h2 h
        · exact h1 h
        · exact h0 h

end Athena.Bvals
