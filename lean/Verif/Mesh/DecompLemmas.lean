import Verif.Mesh.Decomp
import Mathlib.Tactic.Linarith
import Mathlib.Tactic.LinearCombination
import Mathlib.Tactic.Ring
import Mathlib.Tactic.Positivity
import Mathlib.Data.Nat.Cast.Order.Ring
import Mathlib.Algebra.BigOperators.Group.Finset.Basic

/-! # Lemmas on the automatic decomposition (proof internals) -/

namespace Athena.Mesh

theorem searchDown_some {Np rxmin : Nat} : ∀ {rx r}, searchDown Np rxmin rx = some r →
    rxmin ≤ r ∧ 1 ≤ r ∧ r ≤ rx ∧ r ∣ Np ∧ ∀ x, r < x → x ≤ rx → ¬ x ∣ Np := by
  intro rx
  induction rx with
  | zero => intro r h; simp [searchDown] at h
  | succ n ih =>
    intro r h
    simp only [searchDown] at h
    split_ifs at h with h1 h2
    · simp at h; subst h
      exact ⟨by omega, by omega, le_refl _, Nat.dvd_of_mod_eq_zero h2, fun x hx hx' => by omega⟩
    · obtain ⟨a, b, c, d, e⟩ := ih h
      refine ⟨a, b, by omega, d, fun x hx hx' => ?_⟩
      by_cases hxn : x = n+1
      · subst hxn; intro hd; exact h2 (Nat.mod_eq_zero_of_dvd hd)
      · exact e x hx (by omega)

theorem searchDown_none {Np rxmin : Nat} : ∀ {rx}, searchDown Np rxmin rx = none →
    ∀ x, 1 ≤ x → rxmin ≤ x → x ≤ rx → ¬ x ∣ Np := by
  intro rx
  induction rx with
  | zero => intro _ x h1 _ h2; omega
  | succ n ih =>
    intro h x h1 hm hx
    simp only [searchDown] at h
    split_ifs at h with h3 h2
    · omega
    · by_cases hxn : x = n+1
      · subst hxn; intro hd; exact h2 (Nat.mod_eq_zero_of_dvd hd)
      · exact ih h x h1 hm (by omega)

theorem searchUp_some {Np : Nat} : ∀ {fuel rx r}, searchUp Np fuel rx = some r →
    rx ≤ r ∧ r < rx + fuel ∧ r ∣ Np ∧ ∀ x, rx ≤ x → x < r → ¬ x ∣ Np := by
  intro fuel
  induction fuel with
  | zero => intro rx r h; simp [searchUp] at h
  | succ n ih =>
    intro rx r h
    simp only [searchUp] at h
    split_ifs at h with h2
    · simp at h; subst h
      exact ⟨le_refl _, by omega, Nat.dvd_of_mod_eq_zero h2, fun x hx hx' => by omega⟩
    · obtain ⟨a, b, d, e⟩ := ih h
      refine ⟨by omega, by omega, d, fun x hx hx' => ?_⟩
      by_cases hxn : x = rx
      · subst hxn; intro hd; exact h2 (Nat.mod_eq_zero_of_dvd hd)
      · exact e x (by omega) hx'

theorem searchUp_none {Np : Nat} : ∀ {fuel rx}, searchUp Np fuel rx = none →
    ∀ x, rx ≤ x → x < rx + fuel → ¬ x ∣ Np := by
  intro fuel
  induction fuel with
  | zero => intro rx _ x _ _; omega
  | succ n ih =>
    intro rx h x hx hx'
    simp only [searchUp] at h
    split_ifs at h with h2
    by_cases hxn : x = rx
    · subst hxn; intro hd; exact h2 (Nat.mod_eq_zero_of_dvd hd)
    · exact ih h x (by omega) (by omega)

/-- `a ≤ r*b` iff `r` is at least the rounded-up quotient the code computes. -/
theorem ceil_le_iff {Np t r : Nat} (ht : 0 < t) :
    (Np / t + (if Np % t > 0 then 1 else 0) ≤ r) ↔ Np ≤ r * t := by
  have hdm := Nat.div_add_mod Np t
  have hlt := Nat.mod_lt Np ht
  constructor
  · intro h
    have h2 : (Np / t + (if Np % t > 0 then 1 else 0)) * t ≤ r * t := Nat.mul_le_mul_right _ h
    split_ifs at h2 with hc
    · nlinarith
    · nlinarith
  · intro h
    split_ifs with hc
    · by_contra hcon
      have hle : r ≤ Np / t := by omega
      have := Nat.mul_le_mul_right t hle
      nlinarith
    · by_contra hcon
      have hle : r + 1 ≤ Np / t := by omega
      have := Nat.mul_le_mul_right t hle
      have h0 : Np % t = 0 := by omega
      rw [Nat.mul_comm (Np / t) t] at this
      rw [h0] at hdm
      rw [Nat.succ_mul] at this
      omega

theorem rxMin2_le_iff {Ny Np r q : Nat} (hNy : 0 < Ny) (hr : 1 ≤ r) (h : r * q = Np) :
    rxMin2 Ny Np ≤ r ↔ q ≤ Ny := by
  unfold rxMin2
  split_ifs with hlt hm
  · have := ceil_le_iff (Np := Np) (r := r) hNy
    rw [if_pos hm] at this
    rw [this, ← h]
    exact ⟨fun h => Nat.le_of_mul_le_mul_left h hr, fun h => Nat.mul_le_mul_left _ h⟩
  · have := ceil_le_iff (Np := Np) (r := r) hNy
    rw [if_neg hm] at this
    rw [this, ← h]
    exact ⟨fun h => Nat.le_of_mul_le_mul_left h hr, fun h => Nat.mul_le_mul_left _ h⟩
  · constructor
    · intro _
      have : q ≤ Np := by rw [← h]; exact Nat.le_mul_of_pos_left _ hr
      omega
    · intro _; exact hr

theorem rxMin2_pos {Ny Np : Nat} (hNy : 0 < Ny) : 1 ≤ rxMin2 Ny Np := by
  unfold rxMin2
  split_ifs with hlt hm
  · exact Nat.le_add_left 1 _
  · have : 1 ≤ Np / Ny := (Nat.one_le_div_iff hNy).2 hlt.le
    omega
  · omega

theorem le_rxMax2_iff {Nx Np r : Nat} : r ≤ rxMax2 Nx Np ↔ r ≤ Nx ∧ r ≤ Np := by
  unfold rxMax2; split_ifs <;> omega

/-- The cost in terms of the two factors, in ℤ. -/
theorem cost2_eq (ng Nx Ny r q : Nat) (hr : 1 ≤ r) (hq : 1 ≤ q) :
    (cost2 ng Nx Ny r q : ℤ)
      = r * ((Ny : ℤ) - 2*ng) + q * Nx + 2*ng*(r*q) - Ny - Nx := by
  obtain ⟨a, rfl⟩ : ∃ a, r = a+1 := ⟨r-1, by omega⟩
  obtain ⟨b, rfl⟩ : ∃ b, q = b+1 := ⟨q-1, by omega⟩
  simp only [cost2, Nat.add_sub_cancel]
  push_cast; ring

/-- Moving towards the ideal from below does not increase the cost. -/
theorem cost2_below {ng Nx Ny Np r q s t : Nat} (h1 : r * q = Np) (h2 : s * t = Np)
    (hr : 1 ≤ r) (hq : 1 ≤ q) (ht : 1 ≤ t) (hrs : r < s)
    (hI : (r * s : ℤ) * ((Ny : ℤ) - 2*ng) ≤ Nx * Np) :
    cost2 ng Nx Ny s t ≤ cost2 ng Nx Ny r q := by
  have e1 := cost2_eq ng Nx Ny r q hr hq
  have e2 := cost2_eq ng Nx Ny s t (by omega) ht
  have c1 : (r:ℤ) * q = Np := by exact_mod_cast h1
  have c2 : (s:ℤ) * t = Np := by exact_mod_cast h2
  have hrs' : (r:ℤ) < s := by exact_mod_cast hrs
  have hr' : (1:ℤ) ≤ r := by exact_mod_cast hr
  have key : (0:ℤ) ≤ (r*s) * (r * ((Ny : ℤ) - 2*ng) + q * Nx - (s * ((Ny : ℤ) - 2*ng) + t * Nx)) := by
    have : (r*s : ℤ) * (r * ((Ny : ℤ) - 2*ng) + q * Nx - (s * ((Ny : ℤ) - 2*ng) + t * Nx))
        = (s - r) * (Nx * Np - (r * s : ℤ) * ((Ny : ℤ) - 2*ng)) := by
      have a1 : (r*s : ℤ) * (q * Nx) = s * Nx * Np := by rw [← c1]; ring
      have a2 : (r*s : ℤ) * (t * Nx) = r * Nx * Np := by rw [← c2]; ring
      linear_combination a1 - a2
    rw [this]
    exact mul_nonneg (by linarith) (by linarith)
  have hpos : (0:ℤ) < r*s := mul_pos (by linarith) (by linarith)
  have := nonneg_of_mul_nonneg_right key hpos
  have : (cost2 ng Nx Ny s t : ℤ) ≤ cost2 ng Nx Ny r q := by
    rw [e1, e2, c1, c2]; linarith
  exact_mod_cast this

/-- Moving away from the ideal above does not decrease the cost. -/
theorem cost2_above {ng Nx Ny Np r q s t : Nat} (h1 : r * q = Np) (h2 : s * t = Np)
    (hr : 1 ≤ r) (hq : 1 ≤ q) (ht : 1 ≤ t) (hrs : r < s)
    (hI : (Nx * Np : ℤ) ≤ (r * s : ℤ) * ((Ny : ℤ) - 2*ng)) :
    cost2 ng Nx Ny r q ≤ cost2 ng Nx Ny s t := by
  have e1 := cost2_eq ng Nx Ny r q hr hq
  have e2 := cost2_eq ng Nx Ny s t (by omega) ht
  have c1 : (r:ℤ) * q = Np := by exact_mod_cast h1
  have c2 : (s:ℤ) * t = Np := by exact_mod_cast h2
  have hrs' : (r:ℤ) < s := by exact_mod_cast hrs
  have hr' : (1:ℤ) ≤ r := by exact_mod_cast hr
  have key : (0:ℤ) ≤ (r*s) * ((s * ((Ny : ℤ) - 2*ng) + t * Nx) - (r * ((Ny : ℤ) - 2*ng) + q * Nx)) := by
    have : (r*s : ℤ) * ((s * ((Ny : ℤ) - 2*ng) + t * Nx) - (r * ((Ny : ℤ) - 2*ng) + q * Nx))
        = (s - r) * ((r * s : ℤ) * ((Ny : ℤ) - 2*ng) - Nx * Np) := by
      have a1 : (r*s : ℤ) * (q * Nx) = s * Nx * Np := by rw [← c1]; ring
      have a2 : (r*s : ℤ) * (t * Nx) = r * Nx * Np := by rw [← c2]; ring
      linear_combination a2 - a1
    rw [this]
    exact mul_nonneg (by linarith) (by linarith)
  have hpos : (0:ℤ) < r*s := mul_pos (by linarith) (by linarith)
  have := nonneg_of_mul_nonneg_right key hpos
  have : (cost2 ng Nx Ny r q : ℤ) ≤ cost2 ng Nx Ny s t := by
    rw [e1, e2, c1, c2]; linarith
  exact_mod_cast this

/-- Divisor pair inside the limits the routine must respect. -/
theorem factor_bounds {Nx Ny Np r q : Nat} (hNy : 0 < Ny) (hr : 1 ≤ r)
    (hrx : r ≤ Nx) (hq : 1 ≤ q) (hqy : q ≤ Ny) (h : r * q = Np) :
    rxMin2 Ny Np ≤ r ∧ r ≤ rxMax2 Nx Np :=
  ⟨(rxMin2_le_iff hNy hr h).2 hqy, le_rxMax2_iff.2 ⟨hrx, by rw [← h]; exact Nat.le_mul_of_pos_right _ hq⟩⟩

theorem rxStart_le_max (ng Nx Ny Np : Nat) : rxStart ng Nx Ny Np ≤ rxMax2 Nx Np := by
  unfold rxStart; dsimp only; split_ifs <;> omega

theorem rxStart_gt_ideal {ng Nx Ny Np : Nat} (h : rxIdeal ng Nx Ny Np < rxStart ng Nx Ny Np) :
    rxStart ng Nx Ny Np ≤ rxMin2 Ny Np := by
  unfold rxStart at *; dsimp only at *; split_ifs at * <;> omega

theorem rxStart_lt_ideal {ng Nx Ny Np : Nat} (h : rxStart ng Nx Ny Np < rxIdeal ng Nx Ny Np) :
    rxStart ng Nx Ny Np = rxMax2 Nx Np := by
  unfold rxStart at *; dsimp only at *; split_ifs at * <;> omega

/-- In the part at or below the starting value, larger factors are not worse. -/
theorem cost_mono_below {ng Nx Ny Np r q s t : Nat} (h1 : r * q = Np) (h2 : s * t = Np)
    (hr : 1 ≤ r) (hq : 1 ≤ q) (ht : 1 ≤ t) (hmin : rxMin2 Ny Np ≤ r) (hrs : r < s)
    (hs : s ≤ rxStart ng Nx Ny Np) :
    cost2 ng Nx Ny s t ≤ cost2 ng Nx Ny r q := by
  apply cost2_below h1 h2 hr hq ht hrs
  by_cases hd : Ny > 2*ng
  · have hle : rxStart ng Nx Ny Np ≤ rxIdeal ng Nx Ny Np := by
      by_contra hcon
      have := rxStart_gt_ideal (not_le.1 hcon)
      omega
    have hs' : s ≤ rxIdeal ng Nx Ny Np := le_trans hs hle
    have hsq : rxIdeal ng Nx Ny Np * rxIdeal ng Nx Ny Np ≤ Nx * Np / (Ny - 2*ng) := by
      unfold rxIdeal; rw [if_pos hd]; exact Nat.sqrt_le _
    have h3 : r * s ≤ Nx * Np / (Ny - 2*ng) :=
      le_trans (Nat.mul_le_mul (by omega) hs') hsq
    have h4 : r * s * (Ny - 2*ng) ≤ Nx * Np := le_trans (Nat.mul_le_mul_right _ h3) (Nat.div_mul_le_self _ _)
    have : ((r * s * (Ny - 2*ng) : Nat) : ℤ) ≤ ((Nx * Np : Nat) : ℤ) := by exact_mod_cast h4
    rw [Nat.cast_mul, Nat.cast_sub (by omega)] at this
    push_cast at this
    linarith
  · have : ((Ny:ℤ) - 2*ng) ≤ 0 := by
      have : (Ny:ℤ) ≤ 2*ng := by exact_mod_cast not_lt.1 hd
      linarith
    have h5 : (r * s : ℤ) * ((Ny : ℤ) - 2*ng) ≤ 0 := mul_nonpos_of_nonneg_of_nonpos (by positivity) this
    have : (0:ℤ) ≤ Nx * Np := by positivity
    linarith

/-- Above the starting value, smaller factors are not worse. -/
theorem cost_mono_above {ng Nx Ny Np r q s t : Nat} (h1 : r * q = Np) (h2 : s * t = Np)
    (hr : 1 ≤ r) (hq : 1 ≤ q) (ht : 1 ≤ t) (hrs : r < s)
    (hmax : s ≤ rxMax2 Nx Np) (hst : rxStart ng Nx Ny Np < r) :
    cost2 ng Nx Ny r q ≤ cost2 ng Nx Ny s t := by
  have hge : rxIdeal ng Nx Ny Np ≤ rxStart ng Nx Ny Np := by
    by_contra hcon
    have := rxStart_lt_ideal (not_le.1 hcon)
    omega
  by_cases hd : Ny > 2*ng
  · apply cost2_above h1 h2 hr hq ht hrs
    have hlt : Nx * Np / (Ny - 2*ng) < (rxIdeal ng Nx Ny Np + 1) * (rxIdeal ng Nx Ny Np + 1) := by
      unfold rxIdeal; rw [if_pos hd]; exact Nat.lt_succ_sqrt _
    have h3 : Nx * Np / (Ny - 2*ng) < r * s :=
      lt_of_lt_of_le hlt (Nat.mul_le_mul (by omega) (by omega))
    have h4 : Nx * Np < r * s * (Ny - 2*ng) := (Nat.div_lt_iff_lt_mul (by omega)).1 h3
    have : ((Nx * Np : Nat) : ℤ) ≤ ((r * s * (Ny - 2*ng) : Nat) : ℤ) := by exact_mod_cast h4.le
    rw [Nat.cast_mul (r*s), Nat.cast_sub (by omega)] at this
    push_cast at this
    linarith
  · exfalso
    have hm : rxMax2 Nx Np ≤ rxIdeal ng Nx Ny Np := by
      unfold rxIdeal; rw [if_neg hd, Nat.div_one]
      rw [Nat.le_sqrt]
      exact Nat.mul_le_mul (le_rxMax2_iff.1 le_rfl).1 (le_rxMax2_iff.1 le_rfl).2
    omega

/-- Everything about `decomp2` in one statement. -/
theorem decomp2_spec {ng Nx Ny Np : Nat} (hNy : 0 < Ny) (hNp : 0 < Np) :
    (∀ r q, decomp2 ng Nx Ny Np = some (r, q) →
      1 ≤ r ∧ r ≤ Nx ∧ 1 ≤ q ∧ q ≤ Ny ∧ r * q = Np) ∧
    (∀ s t, 1 ≤ s → s ≤ Nx → 1 ≤ t → t ≤ Ny → s * t = Np →
      ∃ r q, decomp2 ng Nx Ny Np = some (r, q) ∧ cost2 ng Nx Ny r q ≤ cost2 ng Nx Ny s t) := by
  have good : ∀ r, 1 ≤ r → rxMin2 Ny Np ≤ r → r ≤ rxMax2 Nx Np → r ∣ Np →
      1 ≤ r ∧ r ≤ Nx ∧ 1 ≤ Np / r ∧ Np / r ≤ Ny ∧ r * (Np / r) = Np := by
    intro r h1 h2 h3 h4
    have h5 := Nat.mul_div_cancel' h4
    refine ⟨h1, (le_rxMax2_iff.1 h3).1, ?_, (rxMin2_le_iff hNy h1 h5).1 h2, h5⟩
    exact (Nat.one_le_div_iff h1).2 (le_rxMax2_iff.1 h3).2
  have hmaxs := rxStart_le_max ng Nx Ny Np
  have hminp := rxMin2_pos (Np := Np) hNy
  unfold decomp2; dsimp only
  cases hdn : searchDown Np (rxMin2 Ny Np) (rxStart ng Nx Ny Np) with
  | none =>
    cases hup : searchUp Np (rxMax2 Nx Np - rxStart ng Nx Ny Np) (rxStart ng Nx Ny Np + 1) with
    | none =>
      refine ⟨by simp, ?_⟩
      intro s t hs hsx ht hty hst
      exfalso
      obtain ⟨hb1, hb2⟩ := factor_bounds hNy hs hsx ht hty hst
      have hdvd : s ∣ Np := ⟨t, hst.symm⟩
      by_cases hle : s ≤ rxStart ng Nx Ny Np
      · exact searchDown_none hdn s hs hb1 hle hdvd
      · exact searchUp_none hup s (by omega) (by omega) hdvd
    | some u =>
      obtain ⟨u1, u2, u3, u4⟩ := searchUp_some hup
      have hmin : rxMin2 Ny Np ≤ u := by
        by_contra hc
        have : rxStart ng Nx Ny Np < rxMin2 Ny Np := by omega
        unfold rxStart at this u1 u2; dsimp only at this u1 u2
        split_ifs at * <;> omega
      have gu := good u (by omega) hmin (by omega) u3
      refine ⟨fun r q h => ?_, ?_⟩
      · simp only [Option.some.injEq, Prod.mk.injEq] at h
        obtain ⟨rfl, rfl⟩ := h; exact gu
      · intro s t hs hsx ht hty hst
        refine ⟨_, _, rfl, ?_⟩
        obtain ⟨hb1, hb2⟩ := factor_bounds hNy hs hsx ht hty hst
        have hdvd : s ∣ Np := ⟨t, hst.symm⟩
        by_cases hle : s ≤ rxStart ng Nx Ny Np
        · exact absurd hdvd (searchDown_none hdn s hs hb1 hle)
        · by_cases hsu : s = u
          · subst hsu
            have : Np / s = t := Nat.div_eq_of_eq_mul_right (by omega) hst.symm
            rw [this]
          · have hus : u < s := by
              by_contra hc
              exact u4 s (by omega) (by omega) hdvd
            exact cost_mono_above gu.2.2.2.2 hst gu.1 gu.2.2.1 ht hus hb2 (by omega)
  | some d =>
    obtain ⟨d1, d2, d3, d4, d5⟩ := searchDown_some hdn
    have gd := good d d2 d1 (by omega) d4
    have bestd : ∀ s t, 1 ≤ s → s ≤ Nx → 1 ≤ t → t ≤ Ny → s * t = Np →
        s ≤ rxStart ng Nx Ny Np → cost2 ng Nx Ny d (Np / d) ≤ cost2 ng Nx Ny s t := by
      intro s t hs hsx ht hty hst hle
      obtain ⟨hb1, hb2⟩ := factor_bounds hNy hs hsx ht hty hst
      have hdvd : s ∣ Np := ⟨t, hst.symm⟩
      by_cases hsd : s = d
      · subst hsd
        have : Np / s = t := Nat.div_eq_of_eq_mul_right (by omega) hst.symm
        rw [this]
      · have : s < d := by
          by_contra hc
          exact d5 s (by omega) hle hdvd
        exact cost_mono_below hst gd.2.2.2.2 hs ht gd.2.2.1 hb1 this d3
    cases hup : searchUp Np (rxMax2 Nx Np - rxStart ng Nx Ny Np) (rxStart ng Nx Ny Np + 1) with
    | none =>
      refine ⟨fun r q h => ?_, ?_⟩
      · simp only [Option.some.injEq, Prod.mk.injEq] at h
        obtain ⟨rfl, rfl⟩ := h; exact gd
      · intro s t hs hsx ht hty hst
        refine ⟨_, _, rfl, ?_⟩
        obtain ⟨hb1, hb2⟩ := factor_bounds hNy hs hsx ht hty hst
        have hdvd : s ∣ Np := ⟨t, hst.symm⟩
        by_cases hle : s ≤ rxStart ng Nx Ny Np
        · exact bestd s t hs hsx ht hty hst hle
        · exact absurd hdvd (searchUp_none hup s (by omega) (by omega))
    | some u =>
      obtain ⟨u1, u2, u3, u4⟩ := searchUp_some hup
      have gu := good u (by omega) (by omega) (by omega) u3
      have bestu : ∀ s t, 1 ≤ s → s ≤ Nx → 1 ≤ t → t ≤ Ny → s * t = Np →
          ¬ s ≤ rxStart ng Nx Ny Np → cost2 ng Nx Ny u (Np / u) ≤ cost2 ng Nx Ny s t := by
        intro s t hs hsx ht hty hst hle
        obtain ⟨hb1, hb2⟩ := factor_bounds hNy hs hsx ht hty hst
        have hdvd : s ∣ Np := ⟨t, hst.symm⟩
        by_cases hsu : s = u
        · subst hsu
          have : Np / s = t := Nat.div_eq_of_eq_mul_right (by omega) hst.symm
          rw [this]
        · have hus : u < s := by
            by_contra hc
            exact u4 s (by omega) (by omega) hdvd
          exact cost_mono_above gu.2.2.2.2 hst gu.1 gu.2.2.1 ht hus hb2 (by omega)
      simp only
      split_ifs with hc
      · refine ⟨fun r q h => ?_, ?_⟩
        · simp only [Option.some.injEq, Prod.mk.injEq] at h
          obtain ⟨rfl, rfl⟩ := h; exact gu
        · intro s t hs hsx ht hty hst
          refine ⟨_, _, rfl, ?_⟩
          by_cases hle : s ≤ rxStart ng Nx Ny Np
          · have := bestd s t hs hsx ht hty hst hle; omega
          · exact bestu s t hs hsx ht hty hst hle
      · refine ⟨fun r q h => ?_, ?_⟩
        · simp only [Option.some.injEq, Prod.mk.injEq] at h
          obtain ⟨rfl, rfl⟩ := h; exact gd
        · intro s t hs hsx ht hty hst
          refine ⟨_, _, rfl, ?_⟩
          by_cases hle : s ≤ rxStart ng Nx Ny Np
          · exact bestd s t hs hsx ht hty hst hle
          · have := bestu s t hs hsx ht hty hst hle; omega

/-! ## 3D -/

theorem cost3_eq (ng Nx Ny Nz rx ry rz : Nat) :
    cost3 ng Nx Ny Nz rx ry rz
      = (rx - 1)*(Ny*Nz) + (Nx + 2*ng*rx) * cost2 ng Ny Nz ry rz := by
  unfold cost3 cost2; ring

theorem rxMin3_le {Ny Nz Np rx ry rz : Nat} (h : rx * ry * rz = Np) (hx : 1 ≤ rx)
    (hy : 1 ≤ ry) (hyN : ry ≤ Ny) (hz : 1 ≤ rz) (hzN : rz ≤ Nz) : rxMin3 Ny Nz Np ≤ rx := by
  have hyz : ry * rz ≤ Np := by
    rw [← h, mul_assoc]; exact Nat.le_mul_of_pos_left _ hx
  have hyp : ry ≤ Np := le_trans (Nat.le_mul_of_pos_right _ hz) hyz
  have hzp : rz ≤ Np := le_trans (Nat.le_mul_of_pos_left _ hy) hyz
  unfold rxMin3; dsimp only
  have hA : ry ≤ (if Ny < Np then Ny else Np) := by split_ifs <;> omega
  have hB : rz ≤ (if Nz < Np then Nz else Np) := by split_ifs <;> omega
  generalize (if Ny < Np then Ny else Np) = A at hA
  generalize (if Nz < Np then Nz else Np) = B at hB
  have ht : 0 < A * B := Nat.mul_pos (by omega) (by omega)
  by_cases hlt : A * B < Np
  · rw [if_pos hlt]
    refine (ceil_le_iff ht).2 ?_
    rw [← h, mul_assoc]
    exact Nat.mul_le_mul_left _ (Nat.mul_le_mul hA hB)
  · rw [if_neg hlt]; exact hx

theorem rxMin3_pos {Ny Nz Np : Nat} (hy : 0 < Ny) (hz : 0 < Nz) (hN : 0 < Np) :
    1 ≤ rxMin3 Ny Nz Np := by
  unfold rxMin3; dsimp only
  have hA : 1 ≤ (if Ny < Np then Ny else Np) := by split_ifs <;> omega
  have hB : 1 ≤ (if Nz < Np then Nz else Np) := by split_ifs <;> omega
  generalize (if Ny < Np then Ny else Np) = A at hA
  generalize (if Nz < Np then Nz else Np) = B at hB
  have ht : 0 < A * B := Nat.mul_pos (by omega) (by omega)
  by_cases hlt : A * B < Np
  · rw [if_pos hlt]
    have : 1 ≤ Np / (A*B) := (Nat.one_le_div_iff ht).2 hlt.le
    omega
  · rw [if_neg hlt]

abbrev c3 (ng Nx Ny Nz : Nat) (b : Nat × Nat × Nat) : Nat := cost3 ng Nx Ny Nz b.1 b.2.1 b.2.2

theorem step3_best {ng Nx Ny Nz Np rx : Nat} (b : Nat × Nat × Nat) :
    ∃ b', step3 ng Nx Ny Nz Np (some b) rx = some b' ∧ c3 ng Nx Ny Nz b' ≤ c3 ng Nx Ny Nz b := by
  unfold step3
  split_ifs with h
  · split
    · exact ⟨b, rfl, le_rfl⟩
    · obtain ⟨b1, b2, b3⟩ := b
      dsimp only
      split_ifs with hc
      · exact ⟨_, rfl, hc.le⟩
      · exact ⟨_, rfl, le_rfl⟩
  · exact ⟨b, rfl, le_rfl⟩

theorem step3_new {ng Nx Ny Nz Np rx ry rz : Nat} (best : Option (Nat × Nat × Nat))
    (h : rx ∣ Np) (h2 : decomp2 ng Ny Nz (Np / rx) = some (ry, rz)) :
    ∃ b', step3 ng Nx Ny Nz Np best rx = some b' ∧
      c3 ng Nx Ny Nz b' ≤ cost3 ng Nx Ny Nz rx ry rz := by
  unfold step3
  rw [if_pos (Nat.mod_eq_zero_of_dvd h), h2]
  cases best with
  | none => exact ⟨_, rfl, le_rfl⟩
  | some b =>
    obtain ⟨b1, b2, b3⟩ := b
    dsimp only
    split_ifs with hc
    · exact ⟨_, rfl, le_rfl⟩
    · exact ⟨_, rfl, not_lt.1 hc⟩

theorem step3_from {ng Nx Ny Nz Np rx : Nat} {best : Option (Nat × Nat × Nat)} {b'}
    (h : step3 ng Nx Ny Nz Np best rx = some b') :
    best = some b' ∨ (b'.1 = rx ∧ rx ∣ Np ∧ decomp2 ng Ny Nz (Np / rx) = some b'.2) := by
  unfold step3 at h
  split_ifs at h with hm
  · split at h
    · exact .inl h
    · rename_i ry rz heq
      split at h
      · right; simp only [Option.some.injEq] at h; subst h
        exact ⟨rfl, Nat.dvd_of_mod_eq_zero hm, heq⟩
      · split_ifs at h with hc
        · right; simp only [Option.some.injEq] at h; subst h
          exact ⟨rfl, Nat.dvd_of_mod_eq_zero hm, heq⟩
        · exact .inl h
  · exact .inl h

theorem loop3_best {ng Nx Ny Nz Np : Nat} : ∀ (fuel rx : Nat) (b : Nat × Nat × Nat),
    ∃ b', loop3 ng Nx Ny Nz Np fuel rx (some b) = some b' ∧ c3 ng Nx Ny Nz b' ≤ c3 ng Nx Ny Nz b := by
  intro fuel
  induction fuel with
  | zero => intro rx b; exact ⟨b, rfl, le_rfl⟩
  | succ n ih =>
    intro rx b
    obtain ⟨b1, h1, h2⟩ := step3_best (ng := ng) (Nx := Nx) (Ny := Ny) (Nz := Nz) (Np := Np) (rx := rx) b
    obtain ⟨b2, h3, h4⟩ := ih (rx+1) b1
    exact ⟨b2, by rw [loop3, h1, h3], le_trans h4 h2⟩

theorem loop3_new {ng Nx Ny Nz Np : Nat} : ∀ (fuel rx : Nat) (best : Option (Nat × Nat × Nat))
    (x ry rz : Nat), rx ≤ x → x < rx + fuel → x ∣ Np → decomp2 ng Ny Nz (Np / x) = some (ry, rz) →
    ∃ b', loop3 ng Nx Ny Nz Np fuel rx best = some b' ∧
      c3 ng Nx Ny Nz b' ≤ cost3 ng Nx Ny Nz x ry rz := by
  intro fuel
  induction fuel with
  | zero => intro rx best x ry rz h1 h2; omega
  | succ n ih =>
    intro rx best x ry rz h1 h2 h3 h4
    by_cases hx : x = rx
    · subst hx
      obtain ⟨b1, e1, e2⟩ := step3_new (Nx := Nx) best h3 h4
      obtain ⟨b2, e3, e4⟩ := loop3_best (ng := ng) (Nx := Nx) (Ny := Ny) (Nz := Nz) (Np := Np) n (x+1) b1
      exact ⟨b2, by rw [loop3, e1, e3], le_trans e4 e2⟩
    · rw [loop3]
      exact ih (rx+1) _ x ry rz (by omega) (by omega) h3 h4

theorem loop3_from {ng Nx Ny Nz Np : Nat} : ∀ (fuel rx : Nat) (best : Option (Nat × Nat × Nat)) (b'),
    loop3 ng Nx Ny Nz Np fuel rx best = some b' →
    best = some b' ∨ (rx ≤ b'.1 ∧ b'.1 < rx + fuel ∧ b'.1 ∣ Np ∧
      decomp2 ng Ny Nz (Np / b'.1) = some b'.2) := by
  intro fuel
  induction fuel with
  | zero => intro rx best b' h; exact .inl h
  | succ n ih =>
    intro rx best b' h
    rw [loop3] at h
    rcases ih _ _ _ h with h | ⟨a, b, c, d⟩
    · rcases step3_from h with h | ⟨a, b, c⟩
      · exact .inl h
      · right; rw [a]; exact ⟨le_rfl, by omega, b, c⟩
    · exact .inr ⟨by omega, by omega, c, d⟩

theorem decomp3_spec {ng Nx Ny Nz Np : Nat} (hNy : 0 < Ny) (hNz : 0 < Nz)
    (hNp : 0 < Np) :
    (∀ a b c, decomp3 ng Nx Ny Nz Np = some (a, b, c) →
      1 ≤ a ∧ a ≤ Nx ∧ 1 ≤ b ∧ b ≤ Ny ∧ 1 ≤ c ∧ c ≤ Nz ∧ a * b * c = Np) ∧
    (∀ r s t, 1 ≤ r → r ≤ Nx → 1 ≤ s → s ≤ Ny → 1 ≤ t → t ≤ Nz → r * s * t = Np →
      ∃ a b c, decomp3 ng Nx Ny Nz Np = some (a, b, c) ∧
        cost3 ng Nx Ny Nz a b c ≤ cost3 ng Nx Ny Nz r s t) := by
  have hmin := rxMin3_pos (Np := Np) hNy hNz hNp
  constructor
  · intro a b c h
    unfold decomp3 at h; dsimp only at h
    rcases loop3_from _ _ _ _ h with h | ⟨h1, h2, h3, h4⟩
    · cases h
    · dsimp only at h1 h2 h3 h4
      have ha : 1 ≤ a := by omega
      have hle : a ≤ (if Nx < Np then Nx else Np) := by omega
      have haN : a ≤ Nx ∧ a ≤ Np := by split_ifs at hle <;> omega
      have hq : 0 < Np / a := Nat.div_pos haN.2 ha
      obtain ⟨q1, q2, q3, q4, q5⟩ := (decomp2_spec hNz hq).1 b c h4
      refine ⟨ha, haN.1, q1, q2, q3, q4, ?_⟩
      rw [mul_assoc, q5, Nat.mul_div_cancel' h3]
  · intro r s t hr hrN hs hsN ht htN h
    have hdvd : r ∣ Np := ⟨s*t, by rw [← h, mul_assoc]⟩
    have hq : Np / r = s * t := Nat.div_eq_of_eq_mul_right (by omega) (by rw [← h, mul_assoc])
    have hqpos : 0 < Np / r := by rw [hq]; exact Nat.mul_pos hs ht
    have hrNp : r ≤ Np := Nat.le_of_dvd hNp hdvd
    obtain ⟨a2, b2, e1, e2⟩ := (decomp2_spec (ng := ng) (Nx := Ny) hNz hqpos).2 s t hs hsN ht htN hq.symm
    have h3 := rxMin3_le h hr hs hsN ht htN
    unfold decomp3; dsimp only
    have hle : r ≤ (if Nx < Np then Nx else Np) := by split_ifs <;> omega
    obtain ⟨b', e3, e4⟩ := loop3_new (ng := ng) (Nx := Nx) (Ny := Ny) (Nz := Nz) (Np := Np)
      ((if Nx < Np then Nx else Np) + 1 - rxMin3 Ny Nz Np) (rxMin3 Ny Nz Np) none r a2 b2 h3
      (by omega) hdvd e1
    refine ⟨b'.1, b'.2.1, b'.2.2, e3, le_trans e4 ?_⟩
    rw [cost3_eq, cost3_eq]
    exact Nat.add_le_add_left (Nat.mul_le_mul_left _ e2) _

/-! ## Division into Grids -/

theorem gridDisp_eq (disp Nx NG : Nat) : ∀ l, gridDisp disp Nx NG l
    = disp + l * (Nx / NG) + min l (Nx % NG) := by
  intro l
  induction l with
  | zero => simp [gridDisp]
  | succ n ih =>
    rw [gridDisp, ih, gridNx, Nat.succ_mul]
    split_ifs <;> omega

theorem gridDisp_total (disp Nx NG : Nat) (h : 0 < NG) : gridDisp disp Nx NG NG = disp + Nx := by
  rw [gridDisp_eq, Nat.min_eq_right (Nat.mod_lt _ h).le, Nat.add_assoc, Nat.div_add_mod]

theorem gridDisp_mono (disp Nx NG : Nat) {a b : Nat} (h : a ≤ b) :
    gridDisp disp Nx NG a ≤ gridDisp disp Nx NG b := by
  induction h with
  | refl => exact le_rfl
  | step _ ih => exact le_trans ih (by rw [gridDisp]; omega)

/-! ## Ranks -/

theorem assignIDs_length (P : Nat) : ∀ cnt next, (assignIDs P cnt next).1.length = cnt := by
  intro cnt
  induction cnt with
  | zero => intro _; rfl
  | succ n ih => intro next; simp [assignIDs, ih]

theorem next_mod {P next : Nat} (hP : 0 < P) (h : next < P) :
    (if next + 1 > P - 1 then 0 else next + 1) = (next + 1) % P := by
  split_ifs with hc
  · have : next + 1 = P := by omega
    rw [this, Nat.mod_self]
  · rw [Nat.mod_eq_of_lt (by omega)]

theorem assignIDs_eq {P : Nat} (hP : 0 < P) : ∀ cnt next, next < P →
    assignIDs P cnt next = ((List.range cnt).map (fun i => (next + i) % P), (next + cnt) % P) := by
  intro cnt
  induction cnt with
  | zero => intro next h; simp [assignIDs, Nat.mod_eq_of_lt h]
  | succ n ih =>
    intro next h
    simp only [assignIDs]
    rw [next_mod hP h, ih _ (Nat.mod_lt _ hP)]
    ext1
    · simp only [List.range_succ_eq_map, List.map_cons, List.map_map, Nat.add_zero,
        Nat.mod_eq_of_lt h, List.cons.injEq, true_and]
      apply List.map_congr_left
      intro i _
      simp only [Function.comp, Nat.mod_add_mod]
      congr 1; omega
    · simp only [Nat.mod_add_mod]; congr 1; omega

end Athena.Mesh
