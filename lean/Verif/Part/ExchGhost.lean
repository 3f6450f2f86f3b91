import Verif.Part.ExchProps

/-!
# src/particles/exchange.c: ghost zones in the predictor step; C85
-/

namespace Athena.Part
noncomputable section
open Classical

theorem line_smul (L : Line) (x o : ℤ) (sg : ℝ) (c : ℤ) (t : ℝ) (F : ℕ → ℤ → ℝ) (l : ℕ) (k : ℤ) :
    line L x o sg c (fun l k => t * F l k) l k = t * line L x o sg c F l k := by
  have hix : ∀ (f : ℤ → ℝ) k, ixRow L x o sg c l (fun k => t * f k) k = t * ixRow L x o sg c l f k := by
    intro f k
    unfold ixRow
    cases L.left <;> dsimp only <;> (try split_ifs) <;> ring
  have hox : ∀ (f : ℤ → ℝ) k, oxRow L x o sg l (fun k => t * f k) k = t * oxRow L x o sg l f k := by
    intro f k
    unfold oxRow
    cases L.right <;> dsimp only <;> (try split_ifs) <;> ring
  have hixf : ∀ (f : ℤ → ℝ), ixRow L x o sg c l (fun k => t * f k) = fun k => t * ixRow L x o sg c l f k :=
    fun f => funext (hix f)
  unfold line
  dsimp only
  by_cases a : L.hasL l <;> by_cases b : L.hasR l
  · simp only [a, b, if_true, true_and]; split_ifs <;> ring
  · simp only [a, b, if_true, if_false, true_and, false_and, hox]; split_ifs <;> ring
  · simp only [a, b, if_true, if_false, true_and, false_and, hix]; split_ifs <;> ring
  · simp only [a, b, if_false, false_and, hixf, hox]; ring

theorem mem_zones {L : Line} {w : ℤ} (h : L.Good w) {p : Σ _ : ℕ, ℤ} :
    p ∈ L.zones 0 ↔ p.1 ≤ L.n ∧ L.s ≤ p.2 ∧ p.2 ≤ L.e p.1 := by
  unfold Line.zones
  rw [Finset.mem_sigma, Finset.mem_range, Nat.lt_succ_iff]
  by_cases hact : L.act = true
  · rw [if_pos hact, Finset.mem_Icc, sub_zero, add_zero]
  · rw [if_neg hact, Finset.mem_Icc]

/-- A ghost zone ends up with the value of the zone it stands for: one existing direction. -/
theorem line_ghost {L : Line} {w x o : ℤ} (h : L.Good w) (hw : x + o ≤ w) (hx0 : 0 ≤ x) (ho : 0 ≤ o)
    (hact : L.act = true) (sg : ℝ) (c : ℤ) (hc : L.left = .reflect → c = L.s)
    (F : ℕ → ℤ → ℝ) (hF : ∀ l k, ¬ L.rng x l k → F l k = 0)
    {l : ℕ} (hl : l ≤ L.n) {k : ℤ} (hk : L.rng o l k) {p : Σ _ : ℕ, ℤ} (hp : p ∈ L.zones 0) {t : ℝ}
    (hh : L.home sg (L.glob l k) = some (L.glob p.1 p.2, t)) :
    line L x o sg c F l k = t * line L x o sg c F p.1 p.2 := by
  have hF' : ∀ l k, ¬ (L.s - x ≤ k ∧ k ≤ L.e l + x) → F l k = 0 := by
    intro l k hn; apply hF; unfold Line.rng; rw [if_pos hact]; exact hn
  unfold Line.rng at hk
  rw [if_pos hact] at hk
  obtain ⟨k1, k2⟩ := hk
  have he : ∀ l, L.e l = L.s + L.nx l - 1 := fun _ => rfl
  have hwl := h.wide hact l hl
  have hw0 := h.wide hact 0 (Nat.zero_le _)
  have hwn := h.wide hact L.n (le_refl _)
  have hx : x ≤ w := by omega
  have hoffl := off_nonneg h l (by omega)
  have htl := (tot_ge h hx hact l hl).2
  have htot : L.tot = L.off L.n + L.nx L.n := off_succ L L.n
  have E := he l
  have En := he L.n
  -- identify the zone
  have uniq : ∀ (l' : ℕ) (k' : ℤ), l' ≤ L.n → L.s ≤ k' → k' ≤ L.e l' → L.glob l' k' = L.glob p.1 p.2 →
      p = ⟨l', k'⟩ := fun l' k' a b c' e =>
    glob_inj h hp ((mem_zones h).mpr ⟨a, b, c'⟩) e.symm
  have act := fun (l' : ℕ) (k' : ℤ) (a : l' ≤ L.n) (b : L.s ≤ k') (c' : k' ≤ L.e l') =>
    line_active h hx hx0 ho hact sg c F a b c'
  by_cases cL : k < L.s
  · -- left ghost zones
    have r1 : ¬ (L.e l - x < k ∧ k ≤ L.e l + o) := by omega
    have hox : ∀ f : ℤ → ℝ, oxRow L x o sg l f k = f k := by
      intro f
      unfold oxRow
      cases L.right <;> dsimp only
      rw [if_neg (by omega), if_neg (by omega)]
    have hline : line L x o sg c F l k = (if L.hasL l then F l k + F (L.prev l) (L.e (L.prev l) + 1 + k - L.s)
        else ixRow L x o sg c l (F l) k) := by
      unfold line
      dsimp only
      rw [if_neg (show ¬ (L.hasR l ∧ L.e l - x < k ∧ k ≤ L.e l + o) by tauto), add_zero]
      have hr : ∀ f : ℤ → ℝ, (if L.hasR l then f else oxRow L x o sg l f) k = f k := by
        intro f
        by_cases b : L.hasR l
        · rw [if_pos b]
        · rw [if_neg b, hox]
      rw [hr]
      by_cases a : L.hasL l
      · simp only [a, if_true, true_and]
        rw [if_pos ⟨k1, by omega⟩]
      · simp only [a, if_false, false_and, add_zero]
    rw [hline]
    by_cases h0 : l = 0
    · subst h0
      have gneg : L.glob 0 k < 0 := by simp only [Line.glob, off_zero]; omega
      unfold Line.home at hh
      rw [if_pos gneg] at hh
      cases hL : L.left
      · -- reflect
        rw [hL] at hh
        simp only [Option.some.injEq, Prod.mk.injEq] at hh
        obtain ⟨hh1, hh2⟩ := hh
        have nl : ¬ L.hasL 0 := by simp [Line.hasL, hL]
        rw [if_neg nl]
        have hp' := uniq 0 (2 * L.s - k - 1) (Nat.zero_le _) (by omega) (by omega) (by
          rw [← hh1]; simp only [Line.glob, off_zero]; omega)
        rw [hp']
        dsimp only
        rw [act 0 (2 * L.s - k - 1) (Nat.zero_le _) (by omega) (by omega), if_neg (show ¬ L.e 0 - x < 2 * L.s - k - 1 by omega), add_zero,
          ← hh2]
        simp only [ixRow, hL]
        rw [if_pos ⟨k1, cL⟩, hc hL]
        simp only [addL, if_true, hL, show L.s ≤ 2 * L.s - k - 1 by omega, true_and]
        rw [show 2 * L.s - (2 * L.s - k - 1) - 1 = k by omega]
        split_ifs <;> ring
      · rw [hL] at hh; simp at hh
      · -- periodic
        rw [hL] at hh
        simp only [Option.some.injEq, Prod.mk.injEq] at hh
        obtain ⟨hh1, hh2⟩ := hh
        have hp' := uniq L.n (L.e L.n + 1 + k - L.s) (le_refl _) (by omega) (by omega) (by
          rw [← hh1]; simp only [Line.glob, off_zero]; omega)
        rw [hp']
        dsimp only
        rw [act L.n (L.e L.n + 1 + k - L.s) (le_refl _) (by omega) (by omega), ← hh2, one_mul]
        simp only [addR, if_true, h.per.mp hL]
        rw [show L.s + (L.e L.n + 1 + k - L.s) - L.e L.n - 1 = k by omega]
        by_cases hn : L.n = 0
        · have nl : ¬ L.hasL 0 := by simp [Line.hasL, hn]
          rw [if_neg nl]
          simp only [ixRow, hL]
          rw [if_pos ⟨k1, cL⟩, hn]
          rw [hn] at En
          simp only [addL, if_true, hL, hn]
          rw [show L.e 0 + 1 + k - L.s = k + L.nx 0 by omega, show k + L.nx 0 - L.nx 0 = k by omega,
            show L.e 0 + 1 + (k + L.nx 0) - L.s = k + L.nx 0 + L.nx 0 by omega]
          have q1 : L.s ≤ k + L.nx 0 := by omega
          have q2 : k + L.nx 0 ≤ L.e 0 := by omega
          simp only [q1, q2, true_and, and_true]
        · rw [if_pos (show L.hasL 0 from Or.inr ⟨hL, hn⟩), show L.prev 0 = L.n by simp [Line.prev],
            if_neg (show ¬ L.e L.n + 1 + k - L.s < L.s + x by omega)]
          by_cases hz : L.e L.n - x < L.e L.n + 1 + k - L.s
          · rw [if_pos hz]; ring
          · rw [if_neg hz, hF' 0 k (by omega)]; ring
    · have hwp := h.wide hact (l - 1) (by omega)
      have Ep := he (l - 1)
      have hoff : L.off l = L.off (l - 1) + L.nx (l - 1) := by
        have := off_succ L (l - 1)
        rwa [show l - 1 + 1 = l by omega] at this
      have hoffp := off_nonneg h (l - 1) (by omega)
      have g1 : ¬ L.glob l k < 0 := by simp only [Line.glob]; omega
      have g2 : L.glob l k < L.tot := by simp only [Line.glob]; omega
      unfold Line.home at hh
      rw [if_neg g1, if_pos g2] at hh
      simp only [Option.some.injEq, Prod.mk.injEq] at hh
      obtain ⟨hh1, hh2⟩ := hh
      have hp' := uniq (l - 1) (L.e (l - 1) + 1 + k - L.s) (by omega) (by omega) (by omega) (by
        rw [← hh1]; simp only [Line.glob]; omega)
      rw [hp']
      dsimp only
      rw [act (l - 1) (L.e (l - 1) + 1 + k - L.s) (by omega) (by omega) (by omega), ← hh2, one_mul, if_pos (show L.hasL l from Or.inl h0),
        show L.prev l = l - 1 by simp [Line.prev, h0],
        if_neg (show ¬ L.e (l - 1) + 1 + k - L.s < L.s + x by omega)]
      simp only [addR, if_neg (show ¬ l - 1 = L.n by omega)]
      rw [show l - 1 + 1 = l by omega, show L.s + (L.e (l - 1) + 1 + k - L.s) - L.e (l - 1) - 1 = k by omega]
      by_cases hz : L.e (l - 1) - x < L.e (l - 1) + 1 + k - L.s
      · rw [if_pos hz]; ring
      · rw [if_neg hz, hF' l k (by omega)]; ring
  · by_cases cR : L.e l < k
    · -- right ghost zones
      have r1 : ¬ (L.s - o ≤ k ∧ k < L.s + x) := by omega
      have hix : L.left ≠ .periodic → ixRow L x o sg c l (F l) k = F l k
          ∧ ∀ k', L.e l - o < k' → k' ≤ L.e l → ixRow L x o sg c l (F l) k' = F l k' := by
        intro hne
        have : ∀ k', L.s + x ≤ k' → ixRow L x o sg c l (F l) k' = F l k' := by
          intro k' hk'
          unfold ixRow
          cases hL : L.left <;> dsimp only
          · rw [if_neg (by omega), if_neg (by omega)]
          · exact absurd hL hne
        exact ⟨this k (by omega), fun k' a b => this k' (by omega)⟩
      by_cases hn : l = L.n
      · have g1 : ¬ L.glob l k < 0 := by simp only [Line.glob]; omega
        have g2 : ¬ L.glob l k < L.tot := by rw [hn] at cR ⊢; simp only [Line.glob]; omega
        unfold Line.home at hh
        rw [if_neg g1, if_neg g2] at hh
        cases hR : L.right
        · -- reflect
          rw [hR] at hh
          simp only [Option.some.injEq, Prod.mk.injEq] at hh
          obtain ⟨hh1, hh2⟩ := hh
          have hLn : L.left ≠ .periodic := fun e => by have := h.per.mp e; rw [hR] at this; cases this
          obtain ⟨i1, i2⟩ := hix hLn
          have nr : ¬ L.hasR l := by simp [Line.hasR, hR, hn]
          have hp' := uniq l (2 * L.e l - k + 1) hl (by omega) (by omega) (by
            rw [← hh1]; rw [← hn] at htot; simp only [Line.glob]; omega)
          rw [hp']
          dsimp only
          rw [act l (2 * L.e l - k + 1) hl (by omega) (by omega), if_neg (show ¬ 2 * L.e l - k + 1 < L.s + x by omega), add_zero, ← hh2]
          unfold line
          dsimp only
          rw [if_neg (show ¬ (L.hasL l ∧ L.s - o ≤ k ∧ k < L.s + x) by tauto), if_neg nr]
          simp only [nr, false_and, if_false, add_zero, oxRow, hR]
          rw [if_pos ⟨cR, k2⟩]
          have i3 : ∀ k', (k' = k ∨ (L.e l - o < k' ∧ k' ≤ L.e l)) →
              (if L.hasL l then F l else ixRow L x o sg c l (F l)) k' = F l k' := by
            intro k' hk'
            by_cases a : L.hasL l
            · rw [if_pos a]
            · rw [if_neg a]
              rcases hk' with e | ⟨e1, e2⟩
              · rw [e]; exact i1
              · exact i2 k' e1 e2
          rw [i3 _ (Or.inr ⟨by omega, by omega⟩), show 2 * L.e l - (2 * L.e l - k + 1) + 1 = k by omega,
            i3 k (Or.inl rfl)]
          simp only [addR, if_pos hn, hR, show 2 * L.e l - k + 1 ≤ L.e l by omega, and_true]
          rw [show 2 * L.e l - (2 * L.e l - k + 1) + 1 = k by omega]
          split_ifs <;> ring
        · rw [hR] at hh; simp at hh
        · -- periodic
          rw [hR] at hh
          simp only [Option.some.injEq, Prod.mk.injEq] at hh
          obtain ⟨hh1, hh2⟩ := hh
          have hL := h.per.mpr hR
          have hp' := uniq 0 (L.s + k - L.e l - 1) (Nat.zero_le _) (by omega) (by rw [he 0]; omega) (by
            rw [← hh1, hn]; rw [hn] at E; simp only [Line.glob, off_zero]; omega)
          rw [hp']
          dsimp only
          rw [act 0 (L.s + k - L.e l - 1) (Nat.zero_le _) (by omega) (by rw [he 0]; omega), ← hh2, one_mul]
          simp only [addL, if_true, hL]
          unfold line
          dsimp only
          rw [if_neg (show ¬ (L.hasL l ∧ L.s - o ≤ k ∧ k < L.s + x) by tauto), add_zero]
          rw [show L.e L.n + 1 + (L.s + k - L.e l - 1) - L.s = k by rw [← hn]; omega]
          by_cases hn0 : L.n = 0
          · have l0 : l = 0 := by omega
            have nl : ¬ L.hasL l := by simp [Line.hasL, hn0, l0]
            have nr : ¬ L.hasR l := by simp [Line.hasR, hn0, l0]
            rw [if_neg nl, if_neg nr]
            simp only [nr, false_and, if_false, add_zero, oxRow, hR, ixRow, hL]
            rw [if_neg (by omega), if_pos ⟨cR, k2⟩, l0, hn0]
            rw [l0] at E cR k2
            simp only [addR, hn0, if_true, hR]
            rw [show L.s + k - L.e 0 - 1 = k - L.nx 0 by omega, show k - L.nx 0 + L.nx 0 = k by omega,
              show L.s + (k - L.nx 0) - L.e 0 - 1 = k - L.nx 0 - L.nx 0 by omega]
            have q1 : L.s ≤ k - L.nx 0 := by omega
            have q2 : k - L.nx 0 ≤ L.e 0 := by omega
            simp only [q1, q2, true_and, and_true]
          · have yl : L.hasL l := by
              by_cases l0 : l = 0
              · exact Or.inr ⟨hL, hn0⟩
              · exact Or.inl l0
            have yr : L.hasR l := Or.inr ⟨hR, hn0⟩
            rw [if_pos yl, if_pos yr, if_pos ⟨yr, by omega, k2⟩, show L.next l = 0 by simp [Line.next, hn],
              if_neg (show ¬ L.e 0 - x < L.s + k - L.e l - 1 by rw [he 0]; omega)]
            by_cases hz : L.s + k - L.e l - 1 < L.s + x
            · rw [if_pos hz, hn]; ring
            · rw [if_neg hz, hF' l k (by omega)]; ring
      · have hwp := h.wide hact (l + 1) (by omega)
        have Ep := he (l + 1)
        have hoff := off_succ L l
        have htp := (tot_ge h hx hact (l + 1) (by omega)).2
        have g1 : ¬ L.glob l k < 0 := by simp only [Line.glob]; omega
        have g2 : L.glob l k < L.tot := by simp only [Line.glob]; omega
        unfold Line.home at hh
        rw [if_neg g1, if_pos g2] at hh
        simp only [Option.some.injEq, Prod.mk.injEq] at hh
        obtain ⟨hh1, hh2⟩ := hh
        have hp' := uniq (l + 1) (L.s + k - L.e l - 1) (by omega) (by omega) (by omega) (by
          rw [← hh1]; simp only [Line.glob]; omega)
        rw [hp']
        dsimp only
        have yr : L.hasR l := Or.inl hn
        rw [act (l + 1) (L.s + k - L.e l - 1) (by omega) (by omega) (by omega), ← hh2, one_mul]
        unfold line
        dsimp only
        have i3 : (if L.hasL l then F l else ixRow L x o sg c l (F l)) k = F l k := by
          by_cases a : L.hasL l
          · rw [if_pos a]
          · rw [if_neg a]
            have l0 : l = 0 := by
              by_contra hne
              exact a (Or.inl hne)
            have : L.left ≠ .periodic := fun e => a (Or.inr ⟨e, by omega⟩)
            exact (hix this).1
        rw [if_neg (show ¬ (L.hasL l ∧ L.s - o ≤ k ∧ k < L.s + x) by tauto), if_pos yr, i3, add_zero,
          if_pos (show L.hasR l ∧ L.e l - x < k ∧ k ≤ L.e l + o from ⟨yr, by omega, k2⟩),
          show L.next l = l + 1 by simp [Line.next, hn],
          if_neg (show ¬ L.e (l + 1) - x < L.s + k - L.e l - 1 by omega)]
        simp only [addL, Nat.succ_ne_zero, if_false, Nat.add_sub_cancel]
        rw [show L.e l + 1 + (L.s + k - L.e l - 1) - L.s = k by omega]
        by_cases hz : L.s + k - L.e l - 1 < L.s + x
        · rw [if_pos hz]; ring
        · rw [if_neg hz, hF' l k (by omega)]; ring
    · -- an active zone
      have g1 : ¬ L.glob l k < 0 := by simp only [Line.glob]; omega
      have g2 : L.glob l k < L.tot := by simp only [Line.glob]; omega
      unfold Line.home at hh
      rw [if_neg g1, if_pos g2] at hh
      simp only [Option.some.injEq, Prod.mk.injEq] at hh
      have hp' := uniq l k hl (by omega) (by omega) hh.1
      rw [hp', ← hh.2, one_mul]

/-- The same for a direction that may not exist. -/
theorem dir_ghost {L : Line} {w x o : ℤ} (h : L.Good w) (hw : x + o ≤ w) (hx0 : 0 ≤ x) (ho : 0 ≤ o)
    (sg : ℝ) (c : ℤ) (hc : L.left = .reflect → c = L.s) (F : ℕ → ℤ → ℝ)
    (hF : L.act = true → ∀ l k, ¬ L.rng x l k → F l k = 0)
    {l : ℕ} (hl : l ≤ L.n) {k : ℤ} (hk : L.rng o l k) {p : Σ _ : ℕ, ℤ} (hp : p ∈ L.zones 0) {t : ℝ}
    (hh : L.home sg (L.glob l k) = some (L.glob p.1 p.2, t)) :
    (if L.act = true then line L x o sg c F l k else F l k)
      = t * (if L.act = true then line L x o sg c F p.1 p.2 else F p.1 p.2) := by
  by_cases hact : L.act = true
  · rw [if_pos hact, if_pos hact]
    exact line_ghost h hw hx0 ho hact sg c hc F (hF hact) hl hk hp hh
  · rw [if_neg hact, if_neg hact]
    have hact' : L.act = false := by simpa using hact
    have hq : (⟨l, k⟩ : Σ _ : ℕ, ℤ) ∈ L.zones 0 := by
      rw [mem_zones h]
      unfold Line.rng at hk
      rw [if_neg hact] at hk
      exact ⟨hl, hk⟩
    obtain ⟨g, t1⟩ := glob_flat h hact' hq
    simp only at g
    unfold Line.home at hh
    rw [if_neg (by omega), if_pos (by omega)] at hh
    simp only [Option.some.injEq, Prod.mk.injEq] at hh
    have := glob_inj h hq hp hh.1
    rw [← this, ← hh.2, one_mul]

/-- Nothing was binned beyond the first layer of ghost zones (particles lie in their Grids); arrays of Grids
that do not exist are taken to be 0. -/
def FirstLayer (B : Lattice) (A : Coup) : Prop :=
  ∀ r3 r2 r1 k j i, ¬ (B.L3.rng 1 r3 k ∧ B.L2.rng 1 r2 j ∧ B.L1.rng 1 r1 i) → A r3 r2 r1 k j i = 0

/-- C85: after the exchange of the predictor step each ghost zone holds what the zone it stands for holds (with
the sign of mirrored normal components), wherever that zone is: in another Grid, across a periodic boundary,
in front of a wall, also at edges and corners.  Grids have more zones than ghost zones. -/
theorem pred_ghost (B : Lattice) {ng w : ℤ} (hB : B.Good w ng) (hw : ng + 1 ≤ w) (n : ℕ) (A A' : Coup)
    (h : exchange B .pred ng n A = .ok A') (hA : FirstLayer B A)
    {q3 q2 q1 p3 p2 p1 : Σ _ : ℕ, ℤ} {t3 t2 t1 : ℝ}
    (hq3 : q3.1 ≤ B.L3.n ∧ B.L3.rng ng q3.1 q3.2) (hq2 : q2.1 ≤ B.L2.n ∧ B.L2.rng ng q2.1 q2.2)
    (hq1 : q1.1 ≤ B.L1.n ∧ B.L1.rng ng q1.1 q1.2)
    (hp3 : p3 ∈ B.L3.zones 0) (hp2 : p2 ∈ B.L2.zones 0) (hp1 : p1 ∈ B.L1.zones 0)
    (h3 : B.L3.home (sign n 2) (B.L3.glob q3.1 q3.2) = some (B.L3.glob p3.1 p3.2, t3))
    (h2 : B.L2.home (sign n 1) (B.L2.glob q2.1 q2.2) = some (B.L2.glob p2.1 p2.2, t2))
    (h1 : B.L1.home (sign n 0) (B.L1.glob q1.1 q1.2) = some (B.L1.glob p1.1 p1.2, t1)) :
    A'.val q3 q2 q1 = t3 * t2 * t1 * A'.val p3 p2 p1 := by
  have hng : 0 ≤ ng := by rw [← hB.n1]; exact hB.g1.ng
  unfold exchange at h
  dsimp only at h
  by_cases hu : outOfArray B (Lab.pred.ofst ng)
  · rw [if_pos hu] at h; cases h
  rw [if_neg hu] at h
  have hA' : (fun r3 r2 r1 k j i => if B.L3.rng ng r3 k ∧ B.L2.rng ng r2 j ∧ B.L1.rng ng r1 i then
      pass1 B 1 ng (sign n 0) (pass2 B 1 ng (sign n 1) (pass3 B 1 ng (sign n 2) A)) r3 r2 r1 k j i
      else A r3 r2 r1 k j i) = A' := Res.ok.inj h
  set A3 := pass3 B 1 ng (sign n 2) A with hA3
  set A2 := pass2 B 1 ng (sign n 1) A3 with hA2
  set A1 := pass1 B 1 ng (sign n 0) A2 with hA1
  have fin : ∀ {a b c : Σ _ : ℕ, ℤ}, B.L3.rng ng a.1 a.2 → B.L2.rng ng b.1 b.2 → B.L1.rng ng c.1 c.2 →
      A'.val a b c = A1.val a b c := by
    intro a b c ha hb hc
    rw [← hA']
    unfold Coup.val
    dsimp only
    rw [if_pos ⟨ha, hb, hc⟩]
  have hw' : 1 + ng ≤ w := by omega
  have rp3 := rng_mono hng (rng_of_mem hp3)
  have rp2 := rng_mono hng (rng_of_mem hp2)
  have rp1 := rng_mono hng (rng_of_mem hp1)
  have hc1 : B.L1.left = .reflect → B.L2.s = B.L1.s := by
    intro hr
    have s1 : B.L1.s = ng := by simp [Line.s, hB.act, hB.n1]
    rw [s1]
    by_cases ha : B.L2.act = true
    · simp [Line.s, ha, hB.n2]
    · have s2 : B.L2.s = 0 := by simp [Line.s, ha]
      by_contra hne
      apply hu
      refine ⟨hB.act, hr, ng - 1, by simp only [Lab.ofst]; omega, by omega, ?_⟩
      omega
  rw [fin hq3.2 hq2.2 hq1.2, fin rp3 rp2 rp1]
  -- zero outside the first layer
  have z3 : ∀ r3 r2 r1 k j i, ¬ (B.L2.rng 1 r2 j ∧ B.L1.rng 1 r1 i) → A3 r3 r2 r1 k j i = 0 := by
    intro r3 r2 r1 k j i hn
    rw [hA3]; unfold pass3
    rw [if_neg (by tauto)]
    exact hA _ _ _ _ _ _ (by tauto)
  have z2 : ∀ r3 r2 r1 k j i, ¬ B.L1.rng 1 r1 i → A2 r3 r2 r1 k j i = 0 := by
    intro r3 r2 r1 k j i hn
    rw [hA2]; unfold pass2
    rw [if_neg (by tauto)]
    exact z3 _ _ _ _ _ _ (by tauto)
  -- the values as results of the three directions
  have v1 : ∀ {r3 r2 : ℕ} {k j : ℤ}, B.L3.rng ng r3 k → B.L2.rng ng r2 j → ∀ r1 i,
      A1 r3 r2 r1 k j i = line B.L1 1 ng (sign n 0) B.L2.s (fun l i => A2 r3 r2 l k j i) r1 i := by
    intro r3 r2 k j ha hb r1 i
    rw [hA1]; unfold pass1
    rw [if_pos ⟨hB.act, ha, hb⟩]
  have v2 : ∀ {r3 r1 : ℕ} {k i : ℤ}, B.L3.rng ng r3 k → B.L1.rng 1 r1 i → ∀ r2 j,
      A2 r3 r2 r1 k j i = if B.L2.act = true then
        line B.L2 1 ng (sign n 1) B.L2.s (fun l j => A3 r3 l r1 k j i) r2 j else A3 r3 r2 r1 k j i := by
    intro r3 r1 k i ha hb r2 j
    rw [hA2]; unfold pass2
    simp only [ha, hb, and_true]
  have v3 : ∀ {r2 r1 : ℕ} {j i : ℤ}, B.L2.rng 1 r2 j → B.L1.rng 1 r1 i → ∀ r3 k,
      A3 r3 r2 r1 k j i = if B.L3.act = true then
        line B.L3 1 ng (sign n 2) B.L3.s (fun l k => A l r2 r1 k j i) r3 k else A r3 r2 r1 k j i := by
    intro r2 r1 j i ha hb r3 k
    rw [hA3]; unfold pass3
    simp only [ha, hb, and_true]
  -- x3
  have e3 : ∀ r2 r1 j i, A3 q3.1 r2 r1 q3.2 j i = t3 * A3 p3.1 r2 r1 p3.2 j i := by
    intro r2 r1 j i
    by_cases hr : B.L2.rng 1 r2 j ∧ B.L1.rng 1 r1 i
    · rw [v3 hr.1 hr.2, v3 hr.1 hr.2]
      refine dir_ghost hB.g3 hw' (by norm_num) hng (sign n 2) B.L3.s (fun _ => rfl)
        (fun l k => A l r2 r1 k j i) ?_ hq3.1 hq3.2 hp3 h3
      intro _ l k hn
      exact hA _ _ _ _ _ _ (by tauto)
    · rw [z3 _ _ _ _ _ _ hr, z3 _ _ _ _ _ _ hr, mul_zero]
  -- x2
  have e2 : ∀ r1 i, A2 q3.1 q2.1 r1 q3.2 q2.2 i = t2 * A2 q3.1 p2.1 r1 q3.2 p2.2 i := by
    intro r1 i
    by_cases hr : B.L1.rng 1 r1 i
    · rw [v2 hq3.2 hr, v2 hq3.2 hr]
      refine dir_ghost hB.g2 hw' (by norm_num) hng (sign n 1) B.L2.s (fun _ => rfl)
        (fun l j => A3 q3.1 l r1 q3.2 j i) ?_ hq2.1 hq2.2 hp2 h2
      intro _ l j hn
      exact z3 _ _ _ _ _ _ (by tauto)
    · rw [z2 _ _ _ _ _ _ hr, z2 _ _ _ _ _ _ hr, mul_zero]
  have e23 : ∀ r1 i, A2 q3.1 p2.1 r1 q3.2 p2.2 i = t3 * A2 p3.1 p2.1 r1 p3.2 p2.2 i := by
    intro r1 i
    by_cases hr : B.L1.rng 1 r1 i
    · rw [v2 hq3.2 hr, v2 rp3 hr]
      by_cases ha : B.L2.act = true
      · rw [if_pos ha, if_pos ha, ← line_smul]
        congr 1
        funext l j
        exact e3 l r1 j i
      · rw [if_neg ha, if_neg ha]
        exact e3 _ _ _ _
    · rw [z2 _ _ _ _ _ _ hr, z2 _ _ _ _ _ _ hr, mul_zero]
  -- x1
  unfold Coup.val
  rw [v1 hq3.2 hq2.2, v1 rp3 rp2]
  have e1 := dir_ghost hB.g1 hw' (by norm_num) hng (sign n 0) B.L2.s hc1
    (fun l i => A2 q3.1 q2.1 l q3.2 q2.2 i) (fun _ l i hn => z2 _ _ _ _ _ _ hn) hq1.1 hq1.2 hp1 h1
  rw [if_pos hB.act, if_pos hB.act] at e1
  rw [e1]
  have : (fun (l : ℕ) (i : ℤ) => A2 q3.1 q2.1 l q3.2 q2.2 i)
      = fun l i => (t3 * t2) * A2 p3.1 p2.1 l p3.2 p2.2 i := by
    funext l i
    rw [e2, e23]; ring
  rw [this, line_smul]
  ring

/-! ## Examples and refutations -/

/-- A periodic x1 direction of 12 zones in two Grids of 6, with 4 ghost zones; a direction that does not
exist; a direction with walls, of 6 zones. -/
def exL1 : Line := ⟨1, fun _ => 6, true, 4, .periodic, .periodic⟩
def exFlatL : Line := ⟨0, fun _ => 1, false, 4, .periodic, .periodic⟩
def exWall : Line := ⟨0, fun _ => 6, true, 4, .reflect, .reflect⟩

theorem exL1_good : exL1.Good 6 :=
  ⟨fun _ _ _ => by simp [exL1], fun _ _ => by simp [exL1], fun h => by simp [exL1] at h, by simp [exL1], by
    simp [exL1]⟩
theorem exFlatL_good : exFlatL.Good 6 :=
  ⟨fun h => by simp [exFlatL] at h, fun _ _ => by simp [exFlatL], fun _ => by simp [exFlatL], by simp [exFlatL], by
    simp [exFlatL]⟩
theorem exWall_good : exWall.Good 6 :=
  ⟨fun _ _ _ => by simp [exWall], fun _ _ => by simp [exWall], fun h => by simp [exWall] at h, by simp [exWall], by
    simp [exWall]⟩

/-- The hypotheses of the theorems are met by a plane with walls in x2 divided into two Grids in x1; the ghost
zone left of the first Grid and below the wall stands for the last zone of the second Grid in front of the
wall. -/
example : (⟨exL1, exWall, exFlatL⟩ : Lattice).Good 6 4 ∧ (4 : ℤ) + 1 ≤ 6 ∧ Lab.exc .corr ≤ 6 ∧
    FirstLayer ⟨exL1, exWall, exFlatL⟩ (fun r3 r2 r1 k j i => if r3 = 0 ∧ r2 = 0 ∧ r1 = 0 ∧ k = 0 ∧ j = 3 ∧ i = 3
      then 7 else 0) ∧
    exL1.home (sign 1 0) (exL1.glob 0 3) = some (exL1.glob 1 9, 1) ∧
    exWall.home (sign 1 1) (exWall.glob 0 3) = some (exWall.glob 0 4, -1) ∧
    exWall.Closed 3 1 ∧ exL1.Closed 0 0 := by
  refine ⟨⟨exL1_good, exWall_good, exFlatL_good, rfl, rfl, rfl, rfl⟩, by norm_num, by simp [Lab.exc], ?_, ?_, ?_, ?_, ?_⟩
  · intro r3 r2 r1 k j i hn
    dsimp only
    rw [if_neg]
    rintro ⟨rfl, rfl, rfl, rfl, rfl, rfl⟩
    apply hn
    simp [Line.rng, exL1, exWall, exFlatL, Line.s, Line.e]
  · simp [Line.home, Line.glob, Line.off, Line.tot, Line.s, exL1, Finset.sum_range_succ]
  · simp [Line.home, Line.glob, Line.off, Line.tot, Line.s, exWall, sign]
  · simp [Line.Closed, exWall]
  · simp [Line.Closed, exL1]

/-- C85 refuted in one dimension: with a reflecting inner boundary the exchange of the predictor step reads
outside its array, whatever is exchanged (`js` is used for `is`). -/
theorem reflect_1d_false (L : Line) (ng : ℤ) (n : ℕ) (A : Coup) (h : L.act = true) (hr : L.left = .reflect)
    (hn : L.ng = ng) (h0 : 0 < ng) :
    exchange ⟨L, exFlatL, exFlatL⟩ .pred ng n A = .ub := by
  have : outOfArray ⟨L, exFlatL, exFlatL⟩ ng := by
    refine ⟨h, hr, ng - 1, ?_, ?_, ?_⟩
    · simp only [Line.s, h, if_true]; omega
    · simp only [Line.s, h, if_true]; omega
    · have : exFlatL.s = 0 := by simp [Line.s, exFlatL]
      simp only [this]; omega
  unfold exchange
  simp only [Lab.ofst, this, if_true]

example : exWall.act = true ∧ exWall.left = .reflect ∧ exWall.ng = 4 := ⟨rfl, rfl, rfl⟩

/-- The normalisation of the force at the end of `feedback_predictor`, integrators_particle.c:554-567, for
component `fb`: `st` is what was binned into `FBstiff`, `d` the density of the gas. -/
def limited (fb st : Coup) (d : ℝ) : Coup := fun r3 r2 r1 k j i =>
  fb r3 r2 r1 k j i * (1 / max 1 (st r3 r2 r1 k j i / d))

/-- The same 12 zones in one Grid. -/
def exWhole : Line := ⟨0, fun _ => 12, true, 4, .periodic, .periodic⟩

/-- One Grid: forces 1 and 1 with stiffness 1 and 1 fall into the 7th zone. -/
def exFb1 : Coup := fun _ _ _ _ _ i => if i = 10 then 2 else 0
/-- Two Grids: one of the particles is in the first Grid and bins onto its right ghost zone, the other in the
second. -/
def exFb2 : Coup := fun _ _ r1 _ _ i => if r1 = 0 ∧ i = 10 then 1 else if r1 = 1 ∧ i = 4 then 1 else 0

/-- C85 refuted for the force of the predictor step: it is limited by the stiffness before the exchange, by
what each Grid has binned itself.  What is binned is the same on one Grid and on two (force 2 and stiffness 2
in the 7th zone), but the limited force is 1 on one Grid and 2 on two. -/
theorem pred_split_false : ∃ A1 A2 S1 S2 C1 C2,
    exchange ⟨exWhole, exFlatL, exFlatL⟩ .pred 4 1 exFb1 = .ok S1 ∧
    exchange ⟨exL1, exFlatL, exFlatL⟩ .pred 4 1 exFb2 = .ok S2 ∧
    S1 0 0 0 0 0 10 = 2 ∧ S2 0 0 1 0 0 4 = 2 ∧
    A1 = limited exFb1 exFb1 1 ∧ A2 = limited exFb2 exFb2 1 ∧
    exchange ⟨exWhole, exFlatL, exFlatL⟩ .pred 4 1 A1 = .ok C1 ∧
    exchange ⟨exL1, exFlatL, exFlatL⟩ .pred 4 1 A2 = .ok C2 ∧
    C1 0 0 0 0 0 10 = 1 ∧ C2 0 0 1 0 0 4 = 2 := by
  have u1 : ¬ outOfArray ⟨exWhole, exFlatL, exFlatL⟩ 4 := by rintro ⟨-, h, -⟩; simp [exWhole] at h
  have u2 : ¬ outOfArray ⟨exL1, exFlatL, exFlatL⟩ 4 := by rintro ⟨-, h, -⟩; simp [exL1] at h
  have r1 : ∀ A : Coup, exchange ⟨exWhole, exFlatL, exFlatL⟩ .pred 4 1 A = .ok (fun r3 r2 r1 k j i =>
      if exFlatL.rng 4 r3 k ∧ exFlatL.rng 4 r2 j ∧ exWhole.rng 4 r1 i then
        pass1 ⟨exWhole, exFlatL, exFlatL⟩ 1 4 1 (pass2 ⟨exWhole, exFlatL, exFlatL⟩ 1 4 (-1)
          (pass3 ⟨exWhole, exFlatL, exFlatL⟩ 1 4 1 A)) r3 r2 r1 k j i
      else A r3 r2 r1 k j i) := by
    intro A; unfold exchange
    simp only [Lab.ofst, Lab.exc, u1, if_false]
    norm_num [sign]
  have r2 : ∀ A : Coup, exchange ⟨exL1, exFlatL, exFlatL⟩ .pred 4 1 A = .ok (fun r3 r2 r1 k j i =>
      if exFlatL.rng 4 r3 k ∧ exFlatL.rng 4 r2 j ∧ exL1.rng 4 r1 i then
        pass1 ⟨exL1, exFlatL, exFlatL⟩ 1 4 1 (pass2 ⟨exL1, exFlatL, exFlatL⟩ 1 4 (-1)
          (pass3 ⟨exL1, exFlatL, exFlatL⟩ 1 4 1 A)) r3 r2 r1 k j i
      else A r3 r2 r1 k j i) := by
    intro A; unfold exchange
    simp only [Lab.ofst, Lab.exc, u2, if_false]
    norm_num [sign]
  have ev1 : ∀ A : Coup, pass1 ⟨exWhole, exFlatL, exFlatL⟩ 1 4 1 (pass2 ⟨exWhole, exFlatL, exFlatL⟩ 1 4 (-1)
          (pass3 ⟨exWhole, exFlatL, exFlatL⟩ 1 4 1 A)) 0 0 0 0 0 10 = A 0 0 0 0 0 10 := by
    intro A
    simp [pass1, pass2, pass3, exWhole, exFlatL, Line.rng, line, Line.hasL, Line.hasR, ixRow, oxRow, Line.s, Line.e]
  have ev2 : ∀ A : Coup, pass1 ⟨exL1, exFlatL, exFlatL⟩ 1 4 1 (pass2 ⟨exL1, exFlatL, exFlatL⟩ 1 4 (-1)
          (pass3 ⟨exL1, exFlatL, exFlatL⟩ 1 4 1 A)) 0 0 1 0 0 4 = A 0 0 1 0 0 4 + A 0 0 0 0 0 10 := by
    intro A
    simp [pass1, pass2, pass3, exL1, exFlatL, Line.rng, line, Line.hasL, Line.hasR, Line.s, Line.e,
      Line.prev, Line.next]
  have f0 : exFlatL.rng 4 0 0 := by simp [Line.rng, exFlatL, Line.s, Line.e]
  have f1 : exWhole.rng 4 0 10 := by simp [Line.rng, exWhole, Line.s, Line.e]
  have f2 : exL1.rng 4 1 4 := by simp [Line.rng, exL1, Line.s, Line.e]
  refine ⟨_, _, _, _, _, _, r1 _, r2 _, ?_, ?_, rfl, rfl, r1 _, r2 _, ?_, ?_⟩
  · rw [if_pos ⟨f0, f0, f1⟩, ev1]; norm_num [exFb1]
  · rw [if_pos ⟨f0, f0, f2⟩, ev2]; norm_num [exFb2]
  · rw [if_pos ⟨f0, f0, f1⟩, ev1]; norm_num [limited, exFb1]
  · rw [if_pos ⟨f0, f0, f2⟩, ev2]; norm_num [limited, exFb2]

end
end Athena.Part
