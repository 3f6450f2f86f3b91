import Verif.Bvals.Whole

/-! # Properties of the boundary values (C20, C21, C22) -/

namespace Athena.Bvals

/-! ## C20 -/

/-- A Domain on a single Grid. -/
def oneGrid (nx : Fin 3 → Nat) (kin kout : Fin 3 → Kind) : Dom := { NG := fun _ => 1, nx := fun t _ => nx t, bcIn := kin, bcOut := kout }

theorem oneGrid_ok {c : Cfg} {nx : Fin 3 → Nat} {kin kout : Fin 3 → Kind} (hdim : Dims c nx) (hin : ∀ t, kin t ≠ .later)
    (hout : ∀ t, kout t ≠ .later) (sz : Nat) : DomOk c sz (oneGrid nx kin kout) := by
  refine ⟨fun _ _ => hdim, ?_, hin, hout, ?_, ?_⟩
  · intro t h; exact absurd h (by simp [oneGrid])
  · intro t h; exact absurd h (by simp [oneGrid])
  · intro C d _ h; exact absurd h (by simp [oneGrid])

/-- **C20.** `bvals_mhd` on a single Grid: every zone of the arrays and every face but the first holds the value of
its image, in edges and corners too. -/
theorem ghost_images {V : Type} [NegZeroClass V] (c : Cfg) (kin kout : Fin 3 → Kind) (g : Grid V) (hdim : Dims c g.nx)
    (hin : ∀ t, kin t ≠ .later) (hout : ∀ t, kout t ≠ .later) (sz : Nat) (o : Fin 3 → Coord → Bool) :
    ∃ g', bvals c sz (oneGrid g.nx kin kout) o (fun _ => g) (fun _ => 0) = .ok g' ∧ g'.nx = g.nx ∧
      ∀ f : Fld, f.In c → ∀ y, Stored c g.nx f y → f.val g' y = image c kin kout g f y := by
  obtain ⟨σ, e0, e3, hσ⟩ := bvals_all (oneGrid_ok hdim hin hout sz) o (fun _ => g) (fun _ _ => rfl)
  have hhas : (oneGrid g.nx kin kout).Has (fun _ => 0) := fun _ => Nat.one_pos
  have esrc : ∀ d (s : Coord → Grid V), srcL (oneGrid g.nx kin kout) d (fun _ => 0) s = .bc (kin d) ∧
      srcR (oneGrid g.nx kin kout) d (fun _ => 0) s = .bc (kout d) := by
    intro d s
    have e1 : left (oneGrid g.nx kin kout) d (fun _ => 0) = none := by unfold left oneGrid; simp
    have e2 : right (oneGrid g.nx kin kout) d (fun _ => 0) = none := by unfold right oneGrid; simp
    unfold srcL srcR
    rw [e1, e2]
    exact ⟨rfl, rfl⟩
  refine ⟨σ 3 (fun _ => 0), e3 _ hhas, (hσ 2 _ hhas).2.1, ?_⟩
  have step := fun (d : Fin 3) (hA : ∀ f : Fld, f.In c → ∀ y, InR (stF c g.nx d.val f) y →
      f.val (σ d.val (fun _ => 0)) y = imageK c kin kout g f d.val (by omega) y) => by
    have h := hσ d _ hhas
    rw [(esrc d _).1, (esrc d _).2] at h
    exact imageK_step (kin := kin) (kout := kout) (g0 := g) d hdim (hin d) (hout d) h.1 hA h.2.2.1 h.2.2.2
  have a0 : ∀ f : Fld, f.In c → ∀ y, InR (stF c g.nx 0 f) y → f.val (σ 0 (fun _ => 0)) y = imageK c kin kout g f 0 (by omega) y := by
    intro f _ y _; rw [e0]; rfl
  have a1 := step 0 a0
  have a2 := step 1 a1
  have a3 := step 2 a2
  intro f hf y hy
  rw [← imageK_three]
  exact a3 f hf y (stored_iff.2 hy)

theorem imgJ_bounds {kin kout : Kind} (h1 : kin ≠ .later) (h2 : kout ≠ .later) {g n b j : Int} (hn : 2 ≤ n) (hg : g ≤ n)
    (hb0 : 0 ≤ b) (hb1 : b ≤ 1) (hj : b ≤ j) (hj' : j < n + 2 * g) :
    g ≤ imgJ kin kout g (n + g - 1) b n j ∧ imgJ kin kout g (n + g - 1) b n j ≤ n + g - 1 + b := by
  unfold imgJ
  cases kin <;> cases kout <;> first | exact absurd rfl h1 | exact absurd rfl h2 | (dsimp only; split_ifs <;> omega)

/-- **C20.** The image of every zone or face is an active zone or face. -/
theorem image_active {c : Cfg} {nx : Fin 3 → Nat} (hdim : Dims c nx) {kin kout : Fin 3 → Kind}
    (hin : ∀ t, kin t ≠ .later) (hout : ∀ t, kout t ≠ .later) (f : Fld) (y : Idx) (hy : Stored c nx f y) :
    Active c nx f (fun t => imgJ (kin t) (kout t) (lo c nx t) (hi c nx t) (extra nx f t) (nx t) (y t)) := by
  intro t
  have hyt := hy t
  have hz := hdim.zones t
  by_cases h : 1 < nx t
  · have e0 : 0 ≤ extra nx f t ∧ extra nx f t ≤ 1 := by unfold extra; split_ifs <;> omega
    rw [size_pos h] at hyt
    show lo c nx t ≤ imgJ (kin t) (kout t) (lo c nx t) (hi c nx t) (extra nx f t) (nx t) (y t) ∧
      imgJ (kin t) (kout t) (lo c nx t) (hi c nx t) (extra nx f t) (nx t) (y t) ≤ _
    rw [lo_pos h, hi_pos h]
    exact imgJ_bounds (hin t) (hout t) (by omega) (by omega) e0.1 e0.2 hyt.1 (by omega)
  · rw [size_one h, extra_one h] at hyt
    show lo c nx t ≤ imgJ (kin t) (kout t) (lo c nx t) (hi c nx t) (extra nx f t) (nx t) (y t) ∧
      imgJ (kin t) (kout t) (lo c nx t) (hi c nx t) (extra nx f t) (nx t) (y t) ≤ _
    rw [imgJ_mid (by rw [lo_one h]; omega) (by rw [hi_one h, extra_one h]; omega), lo_one h, hi_one h, extra_one h]
    omega

/-- **C20.** Active zones are unchanged, and so are their faces except those on reflecting boundaries. -/
theorem active_unchanged {V : Type} [NegZeroClass V] (c : Cfg) (kin kout : Fin 3 → Kind) (g : Grid V) (hdim : Dims c g.nx)
    (hin : ∀ t, kin t ≠ .later) (hout : ∀ t, kout t ≠ .later) (sz : Nat) (o : Fin 3 → Coord → Bool) :
    ∃ g', bvals c sz (oneGrid g.nx kin kout) o (fun _ => g) (fun _ => 0) = .ok g' ∧
      (∀ v ∈ vars c, ∀ y, Active c g.nx (.cell v) y → g'.U y v = g.U y v) ∧
      (c.mhd = true → ∀ n y, Active c g.nx (.face n) y → g'.Bi n y =
        if 1 < g.nx n ∧ ((kin n = .reflect ∧ y n = lo c g.nx n) ∨ (kout n = .reflect ∧ y n = hi c g.nx n + 1)) then 0
        else g.Bi n y) := by
  obtain ⟨g', e, _, h⟩ := ghost_images c kin kout g hdim hin hout sz o
  have hst : ∀ f y, Active c g.nx f y → Stored c g.nx f y := by
    intro f y hy t
    have := hy t
    have hz := hdim.zones t
    have hg := hdim.ghosts
    have e0 : 0 ≤ extra g.nx f t ∧ extra g.nx f t ≤ 1 := by unfold extra; split_ifs <;> omega
    by_cases ht : 1 < g.nx t
    · rw [lo_pos ht, hi_pos ht] at this; rw [size_pos ht]; omega
    · rw [lo_one ht, hi_one ht, extra_one ht] at this; rw [size_one ht, extra_one ht]; omega
  have himg : ∀ f y, Active c g.nx f y → image c kin kout g f y =
      open Classical in if ∃ t, OnWall c kin kout g.nx f y t then 0 else f.val g y := by
    intro f y hy
    unfold image
    dsimp only
    have hm : ∀ t, ¬ Minus c kin kout g.nx f y t := by
      intro t hm
      have := hy t
      rcases hm with ⟨h, _⟩ | ⟨h, _⟩ <;> omega
    rw [if_neg (hm 2), if_neg (hm 1), if_neg (hm 0)]
    have : (fun t => imgJ (kin t) (kout t) (lo c g.nx t) (hi c g.nx t) (extra g.nx f t) (g.nx t) (y t)) = y := by
      funext t; exact imgJ_mid (hy t).1 (hy t).2
    rw [this]
  refine ⟨g', e, ?_, ?_⟩
  · intro v hv y hy
    have h1 : g'.U y v = image c kin kout g (.cell v) y := h (.cell v) hv y (hst _ _ hy)
    rw [h1, himg _ _ hy, if_neg]
    · rfl
    · rintro ⟨t, h, _⟩; cases h
  · intro hm n y hy
    have h1 : g'.Bi n y = image c kin kout g (.face n) y := h (.face n) hm y (hst _ _ hy)
    rw [h1, himg _ _ hy]
    by_cases hw : 1 < g.nx n ∧ ((kin n = .reflect ∧ y n = lo c g.nx n) ∨ (kout n = .reflect ∧ y n = hi c g.nx n + 1))
    · rw [if_pos hw, if_pos ⟨n, rfl, hw⟩]
    · rw [if_neg hw, if_neg]
      · rfl
      · rintro ⟨t, h, h2⟩; cases h; exact hw h2

open Classical in
/-- The images only depend on the values of active zones, and the values the code leaves there have the same
images. -/
theorem image_image {V : Type} [NegZeroClass V] {c : Cfg} {kin kout : Fin 3 → Kind} {g g' : Grid V} (hdim : Dims c g.nx)
    (hin : ∀ t, kin t ≠ .later) (hout : ∀ t, kout t ≠ .later) (hnx : g'.nx = g.nx) (f : Fld)
    (h : ∀ y, Stored c g.nx f y → f.val g' y = image c kin kout g f y) (y : Idx) (hy : Stored c g.nx f y) :
    image c kin kout g' f y = image c kin kout g f y := by
  unfold image
  dsimp only
  rw [hnx]
  by_cases hw : ∃ t, OnWall c kin kout g.nx f y t
  · rw [if_pos hw, if_pos hw]
  · rw [if_neg hw, if_neg hw]
    have hact := image_active hdim hin hout f y hy
    generalize hz : (fun t => imgJ (kin t) (kout t) (lo c g.nx t) (hi c g.nx t) (extra g.nx f t) (g.nx t) (y t)) = z at *
    have hst : Stored c g.nx f z := by
      intro t
      have := hact t
      have hz := hdim.zones t
      have hg := hdim.ghosts
      have e0 : 0 ≤ extra g.nx f t ∧ extra g.nx f t ≤ 1 := by unfold extra; split_ifs <;> omega
      by_cases ht : 1 < g.nx t
      · rw [lo_pos ht, hi_pos ht] at this; rw [size_pos ht]; omega
      · rw [lo_one ht, hi_one ht, extra_one ht] at this; rw [size_one ht, extra_one ht]; omega
    have hv : f.val g' z = f.val g z := by
      rw [h z hst]
      unfold image
      dsimp only
      have hm : ∀ t, ¬ Minus c kin kout g.nx f z t := by
        intro t hm
        have := hact t
        rcases hm with ⟨h, _⟩ | ⟨h, _⟩ <;> omega
      have himg : (fun t => imgJ (kin t) (kout t) (lo c g.nx t) (hi c g.nx t) (extra g.nx f t) (g.nx t) (z t)) = z := by
        funext t; exact imgJ_mid (hact t).1 (hact t).2
      rw [if_neg (hm 2), if_neg (hm 1), if_neg (hm 0), himg, if_neg]
      rintro ⟨t, hf, ht, hb⟩
      apply hw
      refine ⟨t, hf, ht, ?_⟩
      have hzt : z t = imgJ (kin t) (kout t) (lo c g.nx t) (hi c g.nx t) (extra g.nx f t) (g.nx t) (y t) := by rw [← hz]
      have hyt := hy t
      have hzo := hdim.zones t
      have hex : extra g.nx f t = 1 := if_pos ⟨hf, ht⟩
      have h1 := hin t
      have h2 := hout t
      rw [size_pos ht] at hyt
      rw [hex] at hzt hyt
      rw [lo_pos ht, hi_pos ht] at *
      unfold imgJ at hzt
      generalize kin t = a at *
      generalize kout t = b at *
      rcases hb with ⟨rfl, hb⟩ | ⟨rfl, hb⟩
      · left
        refine ⟨rfl, ?_⟩
        cases b <;> first | exact absurd rfl h2 | (dsimp only at hzt; split_ifs at hzt <;> omega)
      · right
        refine ⟨rfl, ?_⟩
        cases a <;> first | exact absurd rfl h1 | (dsimp only at hzt; split_ifs at hzt <;> omega)
    rw [hv]

/-- **C20.** Applying the boundary conditions twice is the same as once. -/
theorem bvals_idempotent {V : Type} [NegZeroClass V] (c : Cfg) (kin kout : Fin 3 → Kind) (g : Grid V) (hdim : Dims c g.nx)
    (hin : ∀ t, kin t ≠ .later) (hout : ∀ t, kout t ≠ .later) (sz : Nat) (o o' : Fin 3 → Coord → Bool) :
    ∃ g' g'', bvals c sz (oneGrid g.nx kin kout) o (fun _ => g) (fun _ => 0) = .ok g' ∧
      bvals c sz (oneGrid g.nx kin kout) o' (fun _ => g') (fun _ => 0) = .ok g'' ∧
      ∀ f : Fld, f.In c → ∀ y, Stored c g.nx f y → f.val g'' y = f.val g' y := by
  obtain ⟨g', e, hnx, h⟩ := ghost_images c kin kout g hdim hin hout sz o
  obtain ⟨g'', e2, _, h2⟩ := ghost_images c kin kout g' (by rw [hnx]; exact hdim) hin hout sz o'
  rw [hnx] at e2 h2
  refine ⟨g', g'', e, e2, ?_⟩
  intro f hf y hy
  rw [h2 f hf y hy, h f hf y hy]
  exact image_image hdim hin hout hnx f (fun y hy => h f hf y hy) y hy

/-! ## C21 -/

/-- **C21.** Two Grids of a Domain that are neighbours in direction `d`: what `h` packs for `g` has the length
declared by both, fits the buffers allocated by `bvals_mhd_init`, is unpacked completely, and puts the zones of
`h` next to the boundary behind the boundary of `g` (inner side: the ghost zone at depth `i` of `g` is the `i`-th
last zone of `h`; outer side: the `i`-th zone of `h`). -/
theorem message_delivered {V : Type} (c : Cfg) (Ds : List Dom) (D : Dom) (hD : D ∈ Ds) (d : Fin 3) (C x : Coord)
    (hC : D.Has C) (hx : D.Has x) (heq : ∀ t, t ≠ d → x t = C t) (hN : 1 < D.NG d)
    (hdC : Dims c (D.gnx C)) (hdx : Dims c (D.gnx x)) (h1 : 1 < D.gnx C d) (h2 : 1 < D.gnx x d)
    (g h : Grid V) (hg : g.nx = D.gnx C) (hh : h.nx = D.gnx x) (sd : Side) :
    ∃ m g', pack c (opp sd) d h = .ok m ∧ (m.length : Int) = cnt c h.nx d ∧ cnt c h.nx d = cnt c g.nx d ∧
      m.length ≤ bufSize c Ds ∧ send c (bufSize c Ds) (opp sd) d h = .ok m ∧
      unpack c sd d g m = .ok (g', []) ∧ recv c (bufSize c Ds) sd d m g = .ok g' ∧
      (∀ y, TrIn (trU c g.nx d) d y → ∀ v ∈ vars c,
        (∀ i : Int, 1 ≤ i → i ≤ c.ng → sd = .inner → y d = lo c g.nx d - i → g'.U y v = h.U (setD y d (hi c h.nx d + 1 - i)) v) ∧
        (∀ i : Int, 1 ≤ i → i ≤ c.ng → sd = .outer → y d = hi c g.nx d + i → g'.U y v = h.U (setD y d (lo c h.nx d - 1 + i)) v) ∧
        (lo c g.nx d ≤ y d → y d ≤ hi c g.nx d → g'.U y v = g.U y v)) ∧
      (c.mhd = true → ∀ n, ∀ y, TrIn (trF c g.nx d (.face n)) d y →
        (∀ i : Int, 1 ≤ i → i + extra g.nx (.face n) d ≤ c.ng → sd = .inner → y d = lo c g.nx d - i →
          g'.Bi n y = h.Bi n (setD y d (hi c h.nx d + 1 - i))) ∧
        (∀ i : Int, 1 ≤ i → i + extra g.nx (.face n) d ≤ c.ng → sd = .outer → y d = hi c g.nx d + extra g.nx (.face n) d + i →
          g'.Bi n y = h.Bi n (setD y d (lo c h.nx d - 1 + extra g.nx (.face n) d + i))) ∧
        (lo c g.nx d ≤ y d → y d ≤ hi c g.nx d + extra g.nx (.face n) d → g'.Bi n y = g.Bi n y)) := by
  have hcnt : cnt c h.nx d = cnt c g.nx d := by
    apply cnt_congr; intro t ht; rw [hg, hh]; unfold Dom.gnx; rw [heq t ht]
  have hbuf : cnt c g.nx d ≤ bufSize c Ds := by rw [hg]; exact cnt_le_bufSize hD hC hdC h1 hN
  obtain ⟨m, g', e1, e2, hdel, e3, e4, e5⟩ := exchange g h (d := d) (by rw [hg]; exact hdC) (by rw [hh]; exact hdx)
    (by rw [hg]; exact h1) (by rw [hh]; exact h2) (by intro t ht; rw [hg, hh]; unfold Dom.gnx; rw [heq t ht]) sd (bufSize c Ds) hbuf
  have ea := hg ▸ h1
  refine ⟨m, g', e4, e5, hcnt, by omega, e1, e3, e2, ?_, ?_⟩
  · intro y hy v hv
    rw [hdel.cells y hy v hv]
    refine ⟨?_, ?_, ?_⟩
    · rintro i hi1 hi2 rfl he
      rw [if_pos (by simp only [depth]; omega)]
      congr 2
      simp only [shift]; omega
    · rintro i hi1 hi2 rfl he
      rw [if_pos (by simp only [depth]; omega)]
      congr 2
      simp only [shift]; omega
    · intro ha hb
      rw [if_neg (by cases sd <;> simp only [depth] <;> omega)]
  · intro hm n y hy
    by_cases e : n = d
    · subst e
      have ee : extra g.nx (.face n) n = 1 := if_pos ⟨rfl, ea⟩
      have et : trF c g.nx n (.face n) = trU c g.nx n := if_pos rfl
      rw [et] at hy
      rw [hdel.normal hm y hy, ee]
      refine ⟨?_, ?_, ?_⟩
      · rintro i hi1 hi2 rfl he
        rw [if_pos (by simp only [fdepth]; omega)]
        congr 2
        simp only [shift]; omega
      · rintro i hi1 hi2 rfl he
        rw [if_pos (by simp only [fdepth]; omega)]
        congr 2
        simp only [shift]; omega
      · intro ha hb
        rw [if_neg (by cases sd <;> simp only [fdepth] <;> omega)]
    · have ee : extra g.nx (.face n) d = 0 := if_neg (fun h => e (by injection h.1))
      have et : trF c g.nx d (.face n) = trB c g.nx d n := if_neg e
      rw [et] at hy
      rw [hdel.trans hm n e y hy, ee]
      refine ⟨?_, ?_, ?_⟩
      · rintro i hi1 hi2 rfl he
        rw [if_pos (by simp only [depth]; omega)]
        congr 2
        simp only [shift]; omega
      · rintro i hi1 hi2 rfl he
        rw [if_pos (by simp only [depth]; omega)]
        congr 2
        simp only [shift]; omega
      · intro ha hb
        rw [if_neg (by cases sd <;> simp only [depth] <;> omega)]

/-! ## C22 -/

/-- Domains for which the exchange is correct: sizes as in `Dims`; in a direction divided among
several Grids every Grid has at least two zones; no side left to be filled by prolongation; a
direction divided among several Grids is periodic on both sides or on none. -/
structure Regular (c : Cfg) (D : Dom) : Prop where
  dims : ∀ C, D.Has C → Dims c (D.gnx C)
  split : ∀ t, 1 < D.NG t → ∀ i, i < D.NG t → 1 < D.nx t i
  kin : ∀ t, D.bcIn t ≠ .later
  kout : ∀ t, D.bcOut t ≠ .later
  per : ∀ t, 1 < D.NG t → (D.bcIn t = .periodic ↔ D.bcOut t = .periodic)

theorem Regular.ok {c : Cfg} {D : Dom} (h : Regular c D) {Ds : List Dom} (hD : D ∈ Ds) : DomOk c (bufSize c Ds) D :=
  ⟨h.dims, h.split, h.kin, h.kout, h.per, fun C d hC hN =>
    cnt_le_bufSize hD hC (h.dims C hC) (h.split d hN _ (hC d)) hN⟩

/-- **C22.** Let the active zones and faces of the Grids of a Domain hold the values of an undivided Domain. After
`bvals_mhd`, in whatever order the messages arrive, every zone of every Grid, active or ghost, corners
included (and every face but the first), holds the value of the undivided Domain after its `bvals_mhd`. -/
theorem decomposed_eq_single {V : Type} [Neg V] [Zero V] (c : Cfg) (Ds : List Dom) (D : Dom) (hDs : D ∈ Ds) (hD : Regular c D)
    (hne : ∃ C, D.Has C) (o o' : Fin 3 → Coord → Bool) (s : Coord → Grid V) (G : Grid V)
    (hnx : ∀ C, D.Has C → (s C).nx = D.gnx C) (hG : G.nx = tot D)
    (h0 : ∀ C, D.Has C → ∀ f : Fld, f.In c → ∀ y, Active c (D.gnx C) f y → f.val (s C) y = f.val G (gl D C y)) :
    ∃ (s' : Coord → Grid V) (G' : Grid V), (∀ C, D.Has C → bvals c (bufSize c Ds) D o s C = .ok (s' C)) ∧
      bvals c 0 (single D) o' (fun _ => G) (fun _ => 0) = .ok G' ∧
      ∀ C, D.Has C → ∀ f : Fld, f.In c → ∀ y, Stored c (D.gnx C) f y → f.val (s' C) y = f.val G' (gl D C y) := by
  obtain ⟨C0, hC0⟩ := hne
  have hsing : DomOk c 0 (single D) := by
    have := single_ok (hD.ok hDs) hC0
    exact ⟨this.dims, this.split, this.kin, this.kout, this.per, fun C d _ h => absurd h (by simp [single])⟩
  obtain ⟨s', G', e1, e2, hA⟩ := agree_all (hD.ok hDs) hsing o o' s G hnx hG
    (fun C hC f hf y hy => h0 C hC f hf y (active_iff.1 hy))
  exact ⟨s', G', e1, e2, fun C hC f hf y hy => hA C hC f hf y (stored_iff.2 hy)⟩

/-- **C22.** Put together with C20: every zone of every Grid holds the image in the undivided Domain. -/
theorem decomposed_images {V : Type} [NegZeroClass V] (c : Cfg) (Ds : List Dom) (D : Dom) (hDs : D ∈ Ds) (hD : Regular c D)
    (hne : ∃ C, D.Has C) (o : Fin 3 → Coord → Bool) (s : Coord → Grid V) (G : Grid V)
    (hnx : ∀ C, D.Has C → (s C).nx = D.gnx C) (hG : G.nx = tot D)
    (h0 : ∀ C, D.Has C → ∀ f : Fld, f.In c → ∀ y, Active c (D.gnx C) f y → f.val (s C) y = f.val G (gl D C y)) :
    ∃ s' : Coord → Grid V, (∀ C, D.Has C → bvals c (bufSize c Ds) D o s C = .ok (s' C)) ∧
      ∀ C, D.Has C → ∀ f : Fld, f.In c → ∀ y, Stored c (D.gnx C) f y →
        f.val (s' C) y = image c D.bcIn D.bcOut G f (gl D C y) := by
  obtain ⟨s', G', e1, e2, hA⟩ := decomposed_eq_single c Ds D hDs hD hne o (fun _ _ => true) s G hnx hG h0
  obtain ⟨C0, hC0⟩ := hne
  have hdt := dims_tot (hD.ok hDs) hC0
  obtain ⟨G'', e3, _, hI⟩ := ghost_images c D.bcIn D.bcOut G (by rw [hG]; exact hdt) hD.kin hD.kout 0 (fun _ _ => true)
  have eD : oneGrid G.nx D.bcIn D.bcOut = single D := by rw [hG]; rfl
  rw [eD, e2] at e3
  injection e3 with e3
  subst e3
  refine ⟨s', e1, fun C hC f hf y hy => ?_⟩
  rw [hA C hC f hf y hy, hI f hf]
  rw [hG]
  exact stored_iff.1 (inR_gl (hD.ok hDs) hC (stored_iff.2 hy))

/-! ## Instances of the hypotheses -/

/-- MHD, two ghost zones, one scalar. -/
def c0 : Cfg := ⟨2, true, false, 1⟩

/-- Seven by four zones on two by two Grids, periodic in x1, a wall below and outflow above in x2. -/
def D0 : Dom where
  NG := fun t => if t = 2 then 1 else 2
  nx := fun t i => if t = 0 then (if i = 0 then 4 else 3) else if t = 1 then 2 else 1
  bcIn := fun t => if t = 0 then .periodic else if t = 1 then .reflect else .outflow
  bcOut := fun t => if t = 0 then .periodic else .outflow

theorem D0_has {C : Coord} (h : D0.Has C) : (C 0 = 0 ∨ C 0 = 1) ∧ (C 1 = 0 ∨ C 1 = 1) ∧ C 2 = 0 := by
  have h0 := h 0
  have h1 := h 1
  have h2 := h 2
  simp only [D0, Fin.isValue, Fin.reduceEq, reduceIte] at h0 h1 h2
  omega

theorem D0_gnx {C : Coord} (h : D0.Has C) : (D0.gnx C 0 = 4 ∨ D0.gnx C 0 = 3) ∧ D0.gnx C 1 = 2 ∧ D0.gnx C 2 = 1 := by
  obtain ⟨h0, _, _⟩ := D0_has h
  simp only [D0, Dom.gnx, Fin.isValue, Fin.reduceEq, reduceIte, and_self, and_true]
  rcases h0 with h | h <;> rw [h] <;> simp

theorem D0_regular : Regular c0 D0 where
  dims C hC := by
    obtain ⟨h0, h1, h2⟩ := D0_gnx hC
    refine ⟨by decide, ?_, ?_⟩
    · intro t
      have : t = 0 ∨ t = 1 ∨ t = 2 := by fin_cases t <;> decide
      have hng : c0.ng = 2 := rfl
      rcases this with rfl | rfl | rfl <;> omega
    · intro t d htd hd
      have ht : t = 0 ∨ t = 1 ∨ t = 2 := by fin_cases t <;> decide
      have hd' : d = 0 ∨ d = 1 ∨ d = 2 := by fin_cases d <;> decide
      rcases ht with rfl | rfl | rfl <;> rcases hd' with rfl | rfl | rfl <;> first | omega | exact absurd htd (by decide)
  split t hN i hi := by
    have ht : t = 0 ∨ t = 1 ∨ t = 2 := by fin_cases t <;> decide
    rcases ht with rfl | rfl | rfl
    · simp only [D0, Fin.isValue, reduceIte]; split_ifs <;> omega
    · simp [D0]
    · simp [D0] at hN
  kin t := by
    have ht : t = 0 ∨ t = 1 ∨ t = 2 := by fin_cases t <;> decide
    rcases ht with rfl | rfl | rfl <;> decide
  kout t := by
    have ht : t = 0 ∨ t = 1 ∨ t = 2 := by fin_cases t <;> decide
    rcases ht with rfl | rfl | rfl <;> decide
  per t hN := by
    have ht : t = 0 ∨ t = 1 ∨ t = 2 := by fin_cases t <;> decide
    rcases ht with rfl | rfl | rfl
    · exact ⟨fun _ => rfl, fun _ => rfl⟩
    · constructor <;> intro h <;> exact absurd h (by decide)
    · simp [D0] at hN

/-- Values that distinguish all zones, fields and faces. -/
def G0 : Grid Int where
  nx := tot D0
  U := fun y v => 1 + y 0 + 100 * y 1 + 10000 * match v with | .d => 0 | .M n => 1 + n.val | .E => 4 | .Bc n => 5 + n.val | .s n => 8 + n
  Bi := fun n y => 1 + y 0 + 100 * y 1 + 1000000 * (1 + n.val)

def s0 : Coord → Grid Int := fun C => ⟨D0.gnx C, fun y v => G0.U (gl D0 C y) v, fun n y => G0.Bi n (gl D0 C y)⟩

/-- The hypotheses of `decomposed_eq_single` and `decomposed_images` hold for this Domain. -/
example : ∃ s' : Coord → Grid Int, (∀ C, D0.Has C → bvals c0 (bufSize c0 [D0]) D0 (fun _ _ => false) s0 C = .ok (s' C)) ∧
    ∀ C, D0.Has C → ∀ f : Fld, f.In c0 → ∀ y, Stored c0 (D0.gnx C) f y →
      f.val (s' C) y = image c0 D0.bcIn D0.bcOut G0 f (gl D0 C y) :=
  decomposed_images c0 [D0] D0 (List.mem_singleton.2 rfl) D0_regular ⟨fun _ => 0, by intro t; fin_cases t <;> decide⟩ _ s0 G0
    (fun _ _ => rfl) rfl (fun C _ f _ y _ => by cases f <;> rfl)

def Res.uOf {V : Type} (y : Idx) (v : Var) : Res (Grid V) → Option V
  | .ok g => some (g.U y v)
  | _ => none

def Res.bOf {V : Type} (n : Fin 3) (y : Idx) : Res (Grid V) → Option V
  | .ok g => some (g.Bi n y)
  | _ => none

def Res.isUb {α : Type} : Res α → Bool
  | .ub => true
  | _ => false

/-- The corner zone `(0, 0)` of the first Grid: the periodic image in x1 and the mirror image in x2, with the normal
momentum reversed. -/
example : Res.uOf (mkIdx 0 0 0) (.M 1) (bvals c0 (bufSize c0 [D0]) D0 (fun _ _ => false) s0 (fun _ => 0)) =
    some (-(G0.U (mkIdx 7 3 0) (.M 1))) := by decide +kernel

/-- The hypotheses of `ghost_images`, `active_unchanged`, `bvals_idempotent` and `image_active` are met. -/
example : Dims c0 G0.nx ∧ (∀ t, D0.bcIn t ≠ .later) ∧ (∀ t, D0.bcOut t ≠ .later) ∧
    Stored c0 G0.nx (.face 1) (mkIdx 0 1 0) ∧ ¬ Active c0 G0.nx (.face 1) (mkIdx 0 1 0) ∧ (Fld.face 1).In c0 := by
  refine ⟨dims_tot (D0_regular.ok (List.mem_singleton.2 rfl)) (C := fun _ => 0) (by intro t; fin_cases t <;> decide), D0_regular.kin, D0_regular.kout, ?_, ?_, rfl⟩
  · intro t; fin_cases t <;> decide +kernel
  · intro h; exact absurd (h 0).1 (by decide +kernel)

/-- The hypotheses of `message_delivered` are met. -/
example : D0 ∈ [D0] ∧ D0.Has (fun _ => 0) ∧ D0.Has (fun t => if t = 0 then 1 else 0) ∧
    (∀ t, t ≠ 0 → (fun t : Fin 3 => if t = 0 then 1 else 0) t = 0) ∧ 1 < D0.NG 0 ∧
    1 < D0.gnx (fun _ => 0) 0 ∧ 1 < D0.gnx (fun t => if t = 0 then 1 else 0) 0 := by
  refine ⟨List.mem_singleton.2 rfl, ?_, ?_, ?_, by decide, by decide, by decide⟩
  · intro t; fin_cases t <;> decide
  · intro t; fin_cases t <;> decide
  · intro t ht; exact if_neg ht

/-! ## What does not hold -/

/-- A line of Grids in x1, periodic. -/
def line (nx : Nat → Nat) (n : Nat) (kin kout : Kind) : Dom where
  NG := fun t => if t = 0 then n else 1
  nx := fun t i => if t = 0 then nx i else 1
  bcIn := fun t => if t = 0 then kin else .outflow
  bcOut := fun t => if t = 0 then kout else .outflow

def lineSt (D : Dom) : Coord → Grid Int := fun C => ⟨D.gnx C, fun y v => if v = .d then gl D C y 0 else 0, fun _ y => gl D C y 0⟩

/-- The hypothesis `split` is needed: with three zones on two Grids the Grid with a single zone sends
nothing and the other waits for ever. -/
theorem one_zone_false : bvals ⟨2, false, false, 0⟩ 1000 (line (fun i => 2 - i) 2 .outflow .outflow) (fun _ _ => true)
    (lineSt (line (fun i => 2 - i) 2 .outflow .outflow)) (fun _ => 0) = .ub := by
  have : Res.isUb (bvals ⟨2, false, false, 0⟩ 1000 (line (fun i => 2 - i) 2 .outflow .outflow) (fun _ _ => true)
    (lineSt (line (fun i => 2 - i) 2 .outflow .outflow)) (fun _ => 0)) = true := by decide +kernel
  revert this
  generalize bvals ⟨2, false, false, 0⟩ 1000 (line (fun i => 2 - i) 2 .outflow .outflow) (fun _ _ => true)
    (lineSt (line (fun i => 2 - i) 2 .outflow .outflow)) (fun _ => 0) = r
  cases r <;> simp [Res.isUb]

/-- The hypothesis `per` is needed: periodic on the inner side only, the first Grid waits for a message the
last one never sends; on a single Grid the same boundary conditions work. -/
theorem one_sided_periodic_false : bvals ⟨2, false, false, 0⟩ 1000 (line (fun _ => 4) 2 .periodic .outflow) (fun _ _ => true)
      (lineSt (line (fun _ => 4) 2 .periodic .outflow)) (fun _ => 0) = .ub ∧
    ∃ g, bvals ⟨2, false, false, 0⟩ 1000 (line (fun _ => 8) 1 .periodic .outflow) (fun _ _ => true)
      (lineSt (line (fun _ => 8) 1 .periodic .outflow)) (fun _ => 0) = .ok g := by
  constructor
  · have : Res.isUb (bvals ⟨2, false, false, 0⟩ 1000 (line (fun _ => 4) 2 .periodic .outflow) (fun _ _ => true)
      (lineSt (line (fun _ => 4) 2 .periodic .outflow)) (fun _ => 0)) = true := by decide +kernel
    revert this
    generalize bvals ⟨2, false, false, 0⟩ 1000 (line (fun _ => 4) 2 .periodic .outflow) (fun _ _ => true)
      (lineSt (line (fun _ => 4) 2 .periodic .outflow)) (fun _ => 0) = r
    cases r <;> simp [Res.isUb]
  · have : (Res.uOf (mkIdx 0 0 0) .d (bvals ⟨2, false, false, 0⟩ 1000 (line (fun _ => 8) 1 .periodic .outflow) (fun _ _ => true)
      (lineSt (line (fun _ => 8) 1 .periodic .outflow)) (fun _ => 0))).isSome = true := by decide +kernel
    revert this
    generalize bvals ⟨2, false, false, 0⟩ 1000 (line (fun _ => 8) 1 .periodic .outflow) (fun _ _ => true)
      (lineSt (line (fun _ => 8) 1 .periodic .outflow)) (fun _ => 0) = r
    cases r <;> simp [Res.uOf]

/-- The hypothesis `zones` is needed: six zones on three Grids of two, with four ghost zones.  The ghost zone at
depth 4 of the second Grid is an old ghost zone of the first (value 2), not the zone of the third Grid
that stands there in the undivided Domain (value 8). -/
theorem narrow_false :
    Res.uOf (mkIdx 0 0 0) .d (bvals ⟨4, false, false, 0⟩ 1000 (line (fun _ => 2) 3 .periodic .periodic) (fun _ _ => true)
      (lineSt (line (fun _ => 2) 3 .periodic .periodic)) (fun t => if t = 0 then 1 else 0)) = some 2 ∧
    Res.uOf (mkIdx 2 0 0) .d (bvals ⟨4, false, false, 0⟩ 1000 (single (line (fun _ => 2) 3 .periodic .periodic)) (fun _ _ => true)
      (lineSt (single (line (fun _ => 2) 3 .periodic .periodic))) (fun _ => 0)) = some 8 := by
  constructor <;> decide +kernel

/-- Outflow is not the same on the two sides for the normal interface field: beyond the inner boundary it is
the field on the boundary face (2), beyond the outer boundary (face 6, value 6) the field on the face before it (5). -/
theorem outflow_faces :
    Res.bOf 0 (mkIdx 1 0 0) (bvals ⟨2, true, false, 0⟩ 0 (line (fun _ => 4) 1 .outflow .outflow) (fun _ _ => true)
      (lineSt (line (fun _ => 4) 1 .outflow .outflow)) (fun _ => 0)) = some 2 ∧
    Res.bOf 0 (mkIdx 7 0 0) (bvals ⟨2, true, false, 0⟩ 0 (line (fun _ => 4) 1 .outflow .outflow) (fun _ _ => true)
      (lineSt (line (fun _ => 4) 1 .outflow .outflow)) (fun _ => 0)) = some 5 ∧
    Res.bOf 0 (mkIdx 6 0 0) (bvals ⟨2, true, false, 0⟩ 0 (line (fun _ => 4) 1 .outflow .outflow) (fun _ _ => true)
      (lineSt (line (fun _ => 4) 1 .outflow .outflow)) (fun _ => 0)) = some 6 := by
  refine ⟨?_, ?_, ?_⟩ <;> decide +kernel

end Athena.Bvals
