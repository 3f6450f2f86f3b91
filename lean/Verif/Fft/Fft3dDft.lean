import Verif.Fft.Fft3dProps

/-!
# With FFTW's transform; the memory suffices; where the sharing of plans goes wrong
-/

namespace Athena.Fft
open Finset Athena.Grav

/-! ## Complex numbers as pairs -/

/-- The complex number whose parts are two consecutive numbers (`fftw_complex`). -/
def val (A : ℤ → ℤ → ℤ → ℕ → ℝ) (i j k : ℤ) : ℂ := ⟨A i j k 0, A i j k 1⟩

/-- The one-dimensional transform as FFTW defines it, on pairs. -/
noncomputable def dft1 (sgn : ℝ) (n : ℕ) (x : ℕ → ℕ → ℝ) (a c : ℕ) : ℝ :=
  let z : ℂ := ∑ b ∈ range n, (⟨x b 0, x b 1⟩ : ℂ) * ex (sgn * (a * b / n))
  if c = 0 then z.re else z.im

theorem dft1_local (sgn : ℝ) : Local (dft1 sgn) := by
  intro n x y h a _ c _
  unfold dft1
  have e : ∑ b ∈ range n, (⟨x b 0, x b 1⟩ : ℂ) * ex (sgn * (a * b / n)) = ∑ b ∈ range n, (⟨y b 0, y b 1⟩ : ℂ) * ex (sgn * (a * b / n)) := by
    refine sum_congr rfl fun b hb => ?_
    rw [h b (mem_range.mp hb) 0 (by omega), h b (mem_range.mp hb) 1 (by omega)]
  simp only [e]

theorem val_alongI (sgn : ℝ) (n : ℕ) (A : ℤ → ℤ → ℤ → ℕ → ℝ) (i j k : ℤ) :
    val (alongI (dft1 sgn) n A) i j k = ∑ b ∈ range n, val A b j k * ex (sgn * (i.toNat * b / n)) := by
  unfold val alongI dft1
  simp only [if_true, one_ne_zero, if_false]

theorem val_alongJ (sgn : ℝ) (n : ℕ) (A : ℤ → ℤ → ℤ → ℕ → ℝ) (i j k : ℤ) :
    val (alongJ (dft1 sgn) n A) i j k = ∑ b ∈ range n, val A i b k * ex (sgn * (j.toNat * b / n)) := by
  unfold val alongJ dft1
  simp only [if_true, one_ne_zero, if_false]

theorem val_alongK (sgn : ℝ) (n : ℕ) (A : ℤ → ℤ → ℤ → ℕ → ℝ) (i j k : ℤ) :
    val (alongK (dft1 sgn) n A) i j k = ∑ b ∈ range n, val A i j b * ex (sgn * (k.toNat * b / n)) := by
  unfold val alongK dft1
  simp only [if_true, one_ne_zero, if_false]

/-- The transform along the three axes is the three-dimensional transform that one process alone makes (`fftw_plan_dft_3d(gnx1, gnx2, gnx3)`,
ath_fft.c:136-142): the fast axis is x3, the slow one x1 (ath_fft.c:131). -/
theorem trans3_dft (sgn : ℝ) (s : Setup) (A : ℤ → ℤ → ℤ → ℕ → ℝ) (a b c : ℕ) :
    val (trans3 (dft1 sgn) s A) a b c = dft3 sgn s.nslow s.nmid s.nfast (fun i j k => val A k j i) c b a := by
  unfold trans3 dft3
  rw [val_alongK]
  refine sum_congr rfl fun i _ => ?_
  rw [val_alongJ, sum_mul]
  refine sum_congr rfl fun j _ => ?_
  rw [val_alongI, sum_mul, sum_mul]
  refine sum_congr rfl fun k _ => ?_
  simp only [Int.toNat_natCast]
  rw [mul_assoc, mul_assoc, ← ex_add, ← ex_add]
  congr 2
  ring

/-- **`ath_3d_fft` with any decomposition computes the transform of the whole data set**, when each process transforms as many lines as it owns:
the zone `(i, j, k)` of the Domain, on the process whose Grid has it, holds the Fourier coefficient of wave number `(i, j, k)`. -/
theorem ath_3d_fft_partial (sgn : ℝ) (s : Setup) (hP : 0 < s.P) (hf : 0 < s.nfast) (ht : s.Tiled) (hc : s.Counts) (scr : ℕ → ℕ → Mem ℝ)
    (ord : ℕ → ℕ → List ℕ) (ho : Arrive s ord) (A : ℤ → ℤ → ℤ → ℕ → ℝ) (b : ℕ → Bufs ℝ) (hb : ∀ p < s.P, Holds 2 0 (s.box p) A (b p).user) :
    ∃ b', fft3d (dft1 sgn) s scr ord b = some b' ∧ ∀ p < s.P, ∀ i j k : ℕ, (s.box p).has k j i →
      (⟨(b' p).user (2 * place 0 (s.box p) k j i), (b' p).user (2 * place 0 (s.box p) k j i + 1)⟩ : ℂ)
        = dft3 sgn s.nslow s.nmid s.nfast (fun i j k => val A k j i) i j k := by
  obtain ⟨b', h1, h2⟩ := fft3d_correct_partial (dft1_local sgn) s hP hf ht hc scr ord ho A b hb
  refine ⟨b', h1, fun p hp i j k h => ?_⟩
  rw [← trans3_dft]
  have e0 := h2 p hp k j i h 0 (by omega)
  have e1 := h2 p hp k j i h 1 (by omega)
  simp only [Nat.cast_ofNat, Nat.cast_zero, Nat.cast_one, add_zero] at e0 e1
  unfold val
  rw [e0, e1]

/-! ## Memory -/

/-- The array the result of a redistribution is put into has room for it, and so has `scratch`. -/
theorem targets_fit (s : Setup) (p : ℕ) :
    (s.pre → (s.first p).size ≤ (if s.target1 p then s.copySize p else (s.box p).size) ∧ (s.first p).size ≤ s.scratchSize p)
    ∧ ((s.second p).size ≤ (if s.target2 p then s.copySize p else (s.box p).size) ∧ (s.second p).size ≤ s.scratchSize p)
    ∧ ((s.third p).size ≤ (if s.target3 p then s.copySize p else (s.box p).size) ∧ (s.third p).size ≤ s.scratchSize p)
    ∧ (s.box p).size ≤ s.scratchSize p := by
  simp only [Setup.copySize, Setup.scratchSize, Setup.target1, Setup.target2, Setup.target3]
  by_cases h1 : (s.first p).size ≤ (s.box p).size <;> by_cases h2 : (s.second p).size ≤ (s.box p).size <;>
    by_cases h3 : (s.third p).size ≤ (s.box p).size <;> by_cases h0 : s.pre <;>
    simp only [h0, h1, h2, h3, if_true, if_false, true_implies, false_implies, true_and, Bool.false_eq_true] <;> omega

open Classical in
/-- The elements of a box. -/
noncomputable def pts (e : Ext) : Finset (ℤ × ℤ × ℤ) := Icc e.ilo e.ihi ×ˢ (Icc e.jlo e.jhi ×ˢ Icc e.klo e.khi)

theorem mem_pts (e : Ext) (x : ℤ × ℤ × ℤ) : x ∈ pts e ↔ e.has x.1 x.2.1 x.2.2 := by
  unfold pts Ext.has
  simp only [mem_product, mem_Icc]

theorem card_pts {e : Ext} (hi : e.ilo ≤ e.ihi) (hj : e.jlo ≤ e.jhi) (hk : e.klo ≤ e.khi) : ((pts e).card : ℤ) = e.isize * e.jsize * e.ksize := by
  unfold pts Ext.isize Ext.jsize Ext.ksize
  rw [card_product, card_product, Int.card_Icc, Int.card_Icc, Int.card_Icc]
  push_cast
  rw [Int.toNat_of_nonneg (by omega), Int.toNat_of_nonneg (by omega), Int.toNat_of_nonneg (by omega)]
  ring

open Classical in
theorem recvGo_room (nq perm : ℕ) (e : Ext) (ins : ℕ → Ext) (ib : ℤ) (l : List ℕ) (hn : l.Nodup)
    (hd : ∀ p ∈ l, ∀ q ∈ l, ∀ i j k, (ins p).has i j k → (ins q).has i j k → p = q) :
    ∀ r ∈ recvGo nq perm e ins ib l, r.bufloc + r.size ≤ ib + nq * ((pts e).filter fun x => ∃ p ∈ l, (ins p).has x.1 x.2.1 x.2.2).card := by
  induction l generalizing ib with
  | nil => simp [recvGo]
  | cons a l ih =>
    obtain ⟨hal, hnl⟩ := List.nodup_cons.mp hn
    have hdl : ∀ p ∈ l, ∀ q ∈ l, ∀ i j k, (ins p).has i j k → (ins q).has i j k → p = q :=
      fun p hp q hq => hd p (List.mem_cons_of_mem _ hp) q (List.mem_cons_of_mem _ hq)
    have hcard : (((pts e).filter fun x => ∃ p ∈ a :: l, (ins p).has x.1 x.2.1 x.2.2).card)
        = ((pts e).filter fun x => (ins a).has x.1 x.2.1 x.2.2).card + ((pts e).filter fun x => ∃ p ∈ l, (ins p).has x.1 x.2.1 x.2.2).card := by
      rw [← card_union_of_disjoint]
      · congr 1
        ext x
        simp only [mem_filter, mem_union, List.mem_cons]
        constructor
        · rintro ⟨h, p, hp | hp, hh⟩
          · subst hp; exact Or.inl ⟨h, hh⟩
          · exact Or.inr ⟨h, p, hp, hh⟩
        · rintro (⟨h, hh⟩ | ⟨h, p, hp, hh⟩)
          · exact ⟨h, a, Or.inl rfl, hh⟩
          · exact ⟨h, p, Or.inr hp, hh⟩
      · rw [disjoint_left]
        intro x hx hx'
        simp only [mem_filter] at hx hx'
        obtain ⟨_, p, hp, hh⟩ := hx'
        have := hd a (List.mem_cons_self ..) p (List.mem_cons_of_mem _ hp) _ _ _ hx.2 hh
        exact hal (this ▸ hp)
    rcases hc : collide e (ins a) with _ | o
    · simp only [recvGo, hc]
      intro r hr
      refine le_trans (ih ib hnl hdl r hr) ?_
      rw [hcard]
      push_cast
      have : (0 : ℤ) ≤ nq * (((pts e).filter fun x => (ins a).has x.1 x.2.1 x.2.2).card : ℤ) := by positivity
      linarith [mul_add (nq : ℤ) (((pts e).filter fun x => (ins a).has x.1 x.2.1 x.2.2).card : ℤ)
        (((pts e).filter fun x => ∃ p ∈ l, (ins p).has x.1 x.2.1 x.2.2).card : ℤ)]
    · obtain ⟨hhas, hi, hj, hk⟩ := collide_some hc
      have hsz : (((pts e).filter fun x => (ins a).has x.1 x.2.1 x.2.2).card : ℤ) = o.isize * o.jsize * o.ksize := by
        rw [← card_pts hi hj hk]
        congr 2
        ext x
        rw [mem_filter, mem_pts, mem_pts, hhas]
      have hs : ∀ ib, (recv1 nq perm e ib a o).size = nq * (((pts e).filter fun x => (ins a).has x.1 x.2.1 x.2.2).card : ℤ) := by
        intro ib; rw [hsz]; simp only [recv1]; ring
      simp only [recvGo, hc]
      intro r hr
      rw [hcard]
      push_cast
      rcases List.mem_cons.mp hr with rfl | hr
      · rw [hs, mul_add]
        have : (0 : ℤ) ≤ nq * (((pts e).filter fun x => ∃ p ∈ l, (ins p).has x.1 x.2.1 x.2.2).card : ℤ) := by positivity
        show ib + _ ≤ _
        linarith
      · have := ih _ hnl hdl r hr
        rw [hs] at this
        rw [mul_add]; linarith

/-- **`scratch` suffices**: when no two processes hold the same element, every message of process `me` is received into the first
`nqty` times as many numbers of `scratch` as the new box has elements (what remap_3d.c:55-59 asks for and 436 allocates). -/
theorem scratch_fits (nq perm : ℕ) {P me : ℕ} (hm : me < P) (ins outs : ℕ → Ext)
    (hd : ∀ p < P, ∀ q < P, ∀ i j k, (ins p).has i j k → (ins q).has i j k → p = q) :
    ∀ r ∈ recvs nq perm P ins outs me, 0 ≤ r.bufloc ∧ r.bufloc + r.size ≤ nq * ((outs me).isize * (outs me).jsize * (outs me).ksize) := by
  classical
  intro r hr
  refine ⟨(recvs_apart nq perm P ins outs me).2 r hr, ?_⟩
  have hlt : ∀ p ∈ ring P me, p < P := by
    intro p hp
    rw [ring_eq hm] at hp
    rcases List.mem_append.mp hp with h | h
    · exact ((mem_ringInit hm).mp h).1
    · rw [List.mem_singleton.mp h]; exact hm
  have hnd : (ring P me).Nodup := by
    rw [ring_eq hm]
    rw [List.nodup_append]
    refine ⟨nodup_ringInit hm, by simp, ?_⟩
    intro x hx y hy
    rw [List.mem_singleton.mp hy]
    exact ((mem_ringInit hm).mp hx).2
  have h := recvGo_room nq perm (outs me) ins 0 (ring P me) hnd (fun p hp q hq => hd p (hlt p hp) q (hlt q hq)) r hr
  obtain ⟨-, o, ho, -⟩ := recvGo_mem hr
  obtain ⟨hhas, hi, hj, hk⟩ := collide_some ho
  have hne := ((hhas o.ilo o.jlo o.klo).mp ⟨⟨le_refl _, hi⟩, ⟨le_refl _, hj⟩, ⟨le_refl _, hk⟩⟩).1
  have hcard := card_pts (e := outs me) (by have := hne.1; omega) (by have := hne.2.1; omega) (by have := hne.2.2; omega)
  rw [← hcard]
  refine le_trans h ?_
  rw [zero_add]
  have : (((pts (outs me)).filter fun x => ∃ p ∈ ring P me, (ins p).has x.1 x.2.1 x.2.2).card : ℤ) ≤ ((pts (outs me)).card : ℤ) := by
    exact_mod_cast card_filter_le _ _
  exact mul_le_mul_of_nonneg_left this (by positivity)

/-! ## Where it goes wrong -/

/-- `9 * 16 * 9` zones on two processes, the Grids divided along x3 as init_mesh.c divides them: the extra zones are on the first. -/
def odd : Setup where
  P := 2
  nfast := 9
  nmid := 16
  nslow := 9
  box p := if p = 0 then ⟨0, 4, 0, 15, 0, 8⟩ else ⟨5, 8, 0, 15, 0, 8⟩

theorem odd_np : odd.np1 = 1 ∧ odd.np2 = 2 := by
  have h : bifactor 2 = (1, 2) := by rw [bifactor_of (r := 1) (by omega)]; decide
  constructor
  · show (bifactor 2).1 = 1; rw [h]
  · show (bifactor 2).2 = 2; rw [h]

theorem odd_pre : odd.pre := ⟨0, by decide, by decide⟩

theorem odd_tiled : odd.Tiled := by
  constructor
  · intro p hp i j k h
    have hp : p = 0 ∨ p = 1 := by have : p < 2 := hp; omega
    rcases hp with rfl | rfl
    · simp only [odd, Ext.has, if_true] at h
      simp only [Setup.all, odd]; omega
    · simp only [odd, Ext.has, one_ne_zero, if_false] at h
      simp only [Setup.all, odd]; omega
  · intro i j k h
    simp only [Setup.all, odd] at h
    by_cases hi : i ≤ 4
    · refine ⟨0, by decide, ?_⟩
      simp only [odd, Ext.has, if_true]; omega
    · refine ⟨1, by decide, ?_⟩
      simp only [odd, Ext.has, one_ne_zero, if_false]; omega

theorem odd_third (p : ℕ) (hp : p < 2) : odd.third p = ⟨0, 8, 8 * p, 8 * p + 7, 0, 8⟩ := by
  obtain ⟨h1, h2⟩ := odd_np
  have hp : p = 0 ∨ p = 1 := by omega
  simp only [Setup.third, Setup.ip1, Setup.ip2, h1, h2]
  rcases hp with rfl | rfl <;> simp [odd, lo, hi]

theorem odd_cnt (p : ℕ) (hp : p < 2) : odd.cnt3 p = if p = 0 then 64 else 80 := by
  obtain ⟨h1, h2⟩ := odd_np
  have hp : p = 0 ∨ p = 1 := by omega
  have e : odd.cnt3 p = odd.cnt1 p := by unfold Setup.cnt3; rw [if_pos (show odd.nslow = odd.nfast from rfl)]
  rw [e, cnt1_eq odd (by decide) p]
  simp only [Setup.first, if_pos odd_pre, Setup.ip1, Setup.ip2, h1, h2, Ext.jsize, Ext.ksize]
  rcases hp with rfl | rfl <;> simp [odd, lo, hi]

/-- One at the origin, zero elsewhere. -/
def spike : ℤ → ℤ → ℤ → ℕ → ℝ := fun i j k c => if i = 0 ∧ j = 0 ∧ k = 0 ∧ c = 0 then 1 else 0

/-- The arrays of the two processes with the spike. -/
def spikeBufs : ℕ → Bufs ℝ := fun p => ⟨fun x => if p = 0 ∧ x = 0 then 1 else 0, fun _ => 0⟩

theorem spike_holds (p : ℕ) (hp : p < odd.P) : Holds 2 0 (odd.box p) spike (spikeBufs p).user := by
  intro i j k h c hc
  have hp : p = 0 ∨ p = 1 := by have : p < 2 := hp; omega
  unfold spike spikeBufs
  rcases hp with rfl | rfl
  · have hb : odd.box 0 = ⟨0, 4, 0, 15, 0, 8⟩ := rfl
    by_cases h0 : i = 0 ∧ j = 0 ∧ k = 0 ∧ c = 0
    · obtain ⟨rfl, rfl, rfl, rfl⟩ := h0
      simp [place, hb]
    · simp only
      rw [if_neg h0, if_neg]
      rintro ⟨-, hx⟩
      have : (2 : ℕ) * place 0 (odd.box 0) i j k + (c : ℤ) = (2 : ℕ) * place 0 (odd.box 0) 0 0 0 + ((0 : ℕ) : ℤ) := by
        rw [hx]; simp [place, hb]
      obtain ⟨e1, e2, e3, e4⟩ := place_inj 0 2 (odd.box 0) h (by rw [hb]; simp [Ext.has]) hc (by omega) this
      exact h0 ⟨e1, e2, e3, e4⟩
  · have hb : odd.box 1 = ⟨5, 8, 0, 15, 0, 8⟩ := rfl
    rw [hb] at h
    have hi : i ≠ 0 := by have := h.1.1; simp only at this; omega
    simp [hi]

theorem val_spike (i j k : ℤ) : val spike i j k = if i = 0 ∧ j = 0 ∧ k = 0 then 1 else 0 := by
  unfold val spike
  split_ifs with h1 h2 h3
  all_goals first
    | (simp_all; done)
    | (apply Complex.ext <;> simp_all)

/-- After the transforms along x3 and x2 the spike is one on the plane `x1 = 0` and zero elsewhere. -/
theorem spike_two (i j : ℕ) (k : ℤ) :
    val (alongJ (dft1 (-1)) 16 (alongI (dft1 (-1)) 9 spike)) i j k = if k = 0 then 1 else 0 := by
  rw [val_alongJ, sum_eq_single 0]
  · rw [val_alongI, sum_eq_single 0]
    · rw [val_spike]; simp [ex_zero]
    · intro b _ hb
      rw [val_spike, if_neg (by simp [hb])]; simp
    · simp
  · intro b _ hb
    rw [val_alongI]
    rw [sum_eq_zero]
    · simp
    · intro a _
      rw [val_spike, if_neg (by simp [hb])]; simp
  · simp

theorem spike_three (i j k : ℕ) : val (trans3 (dft1 (-1)) odd spike) i j k = 1 := by
  show val (alongK (dft1 (-1)) 9 (alongJ (dft1 (-1)) 16 (alongI (dft1 (-1)) 9 spike))) i j k = 1
  rw [val_alongK, sum_eq_single 0]
  · have := spike_two i j ((0 : ℕ) : ℤ)
    rw [this]; simp [ex_zero]
  · intro b _ hb
    rw [spike_two, if_neg (by exact_mod_cast hb)]; simp
  · simp

/-- **The transform of a decomposed array can be wrong.**  `9 * 16 * 9` zones on two processes: the transforms along x1 reuse the plan of those
along x3, which have the same length, but process 0 owns 64 lines along x3 and 72 along x1: eight lines are left untransformed, whatever the
order in which messages arrive. -/
theorem fft3d_false : 0 < odd.P ∧ odd.Tiled ∧ (∀ p < odd.P, Holds 2 0 (odd.box p) spike (spikeBufs p).user)
    ∧ ∀ scr ord, Arrive odd ord → ∃ b', fft3d (dft1 (-1)) odd scr ord spikeBufs = some b'
      ∧ (b' 0).user (2 * place 0 (odd.box 0) 1 7 1) = 0 ∧ trans3 (dft1 (-1)) odd spike 1 7 1 0 = 1 := by
  refine ⟨by decide, odd_tiled, spike_holds, fun scr ord ho => ?_⟩
  have hc2 : ∀ p < odd.P, odd.cnt2 p = (odd.second p).ksize * (odd.second p).isize := by
    intro p _
    unfold Setup.cnt2
    rw [if_neg (by decide)]
    exact cnt2_own odd (by decide) p
  obtain ⟨b5, e, h5⟩ := fft3d_front (dft1_local (-1)) odd (by decide) (by decide) odd_tiled hc2 scr ord ho spike spikeBufs spike_holds
  set A2 := alongJ (dft1 (-1)) odd.nmid (alongI (dft1 (-1)) odd.nfast spike) with hA2
  -- what the third transforms leave
  set A3 : ℤ → ℤ → ℤ → ℕ → ℝ := fun k i j c =>
    if (j - 8 * (if j < 8 then 0 else 1)) * 9 + i < (if j < 8 then 64 else 80) then dft1 (-1) 9 (fun a c => A2 i j a c) k.toNat c else A2 i j k c with hA3
  have h6 : ∀ p < odd.P, Holds 2 0 (odd.third p).rot.rot A3 ((fftwAll (dft1 (-1)) odd.nslow odd.cnt3 odd.target3 b5 p).get (odd.target3 p)) := by
    intro p hp
    have hp2 : p < 2 := hp
    unfold fftwAll
    rw [get_set]
    have h := fftw_holds (dft1_local (-1)) (n := 9) (e := (odd.third p).rot.rot) rfl rfl (odd.cnt3 p) (h5 p hp)
    intro k i j hh c hc
    have := h k i j hh c hc
    refine Eq.trans this ?_
    rw [odd_cnt p hp2]
    rw [odd_third p hp2] at hh
    have hj : (8 * p ≤ j ∧ j ≤ 8 * p + 7) := by
      have := hh.2.2; simpa [Ext.rot] using this
    have ek : (odd.third p).rot.rot.klo = 8 * p := by rw [odd_third p hp2]; rfl
    have ejl : (odd.third p).rot.rot.jlo = 0 := by rw [odd_third p hp2]; rfl
    have ejs : (odd.third p).rot.rot.jsize = 9 := by rw [odd_third p hp2]; rfl
    rw [ek, ejl, ejs, hA3]
    have hp3 : p = 0 ∨ p = 1 := by omega
    rcases hp3 with rfl | rfl
    · have hj8 : j < 8 := by simp at hj; omega
      simp only [hj8, if_true, Nat.cast_zero, mul_zero, sub_zero]
    · have hj8 : ¬ j < 8 := by simp at hj; omega
      simp only [hj8, if_false, Nat.cast_one, one_ne_zero, sub_zero]
  obtain ⟨b7, hb7, h7⟩ := remapAll_correct odd.P 1 (fun p => (odd.third p).rot.rot) (fun p => (odd.box p).rot.rot) odd.target3 (fun _ => false) (scr 3)
    (ord 3) (fftwAll (dft1 (-1)) odd.nslow odd.cnt3 odd.target3 b5) A3 h6
    (fun p hp k i j h => by
      obtain ⟨q, hq, hh⟩ := Setup.third_cov (s := odd) (by decide) (odd_tiled.sub p hp i j k (by
        rw [← rot_has (odd.box p) i j k, ← rot_has (odd.box p).rot j k i]; exact h))
      exact ⟨q, hq, by rw [rot_has (odd.third q).rot j k i, rot_has (odd.third q) i j k]; exact hh⟩) ho.o3
  refine ⟨b7, by rw [e]; exact hb7, ?_, ?_⟩
  · have h := holds_rot (h7 0 (by decide)) 1 7 1 (by
      show (Ext.has ⟨0, 4, 0, 15, 0, 8⟩ 1 7 1)
      simp [Ext.has]) 0 (by omega)
    have hv := spike_two 1 7 1
    have : A2 1 7 1 0 = 0 := by
      have := congrArg Complex.re hv
      simp only [val, Nat.cast_one, Nat.cast_ofNat, one_ne_zero, if_false, Complex.zero_re] at this
      exact this
    rw [hA3] at h
    norm_num at h
    rw [this] at h
    exact h
  · have := congrArg Complex.re (spike_three 1 7 1)
    simpa [val] using this

/-! ## The hypotheses can be met -/

/-- `8 * 16 * 8` zones on four processes, two by two in x2 and x3. -/
def four : Setup where
  P := 4
  nfast := 8
  nmid := 16
  nslow := 8
  box p := ⟨4 * (p % 2 : ℕ), 4 * (p % 2 : ℕ) + 3, 8 * (p / 2 : ℕ), 8 * (p / 2 : ℕ) + 7, 0, 7⟩

theorem four_tiled : four.Tiled := by
  constructor
  · intro p hp i j k h
    have hp : p < 4 := hp
    simp only [four, Ext.has] at h
    simp only [Setup.all, four]; omega
  · intro i j k h
    simp only [Setup.all, four] at h
    refine ⟨(i / 4).toNat + 2 * (j / 8).toNat, ?_, ?_⟩
    · show _ < 4; omega
    · simp only [four, Ext.has]; omega

theorem four_counts : four.Counts := by
  have hb : bifactor 4 = (2, 2) := by rw [bifactor_of (r := 2) (by omega)]; decide
  have n1 : four.np1 = 2 := by show (bifactor 4).1 = 2; rw [hb]
  have n2 : four.np2 = 2 := by show (bifactor 4).2 = 2; rw [hb]
  apply counts_even four (by decide) (by decide) (by decide) (by decide)
  refine ⟨by rw [n1]; decide, by rw [n1]; decide, by rw [n2]; decide, by rw [n2]; decide, fun h => absurd ?_ h⟩
  exact ⟨0, by decide, by decide⟩

/-- Orders of arrival exist. -/
theorem arrive_exists (s : Setup) : ∃ ord, Arrive s ord :=
  ⟨fun n p => List.range (if n = 0 then (others RecvRec.proc p (recvs 2 0 s.P s.box s.first p)).length
    else if n = 1 then (others RecvRec.proc p (recvs 2 1 s.P s.first s.second p)).length
    else if n = 2 then (others RecvRec.proc p (recvs 2 1 s.P (fun p => (s.second p).rot) (fun p => (s.third p).rot) p)).length
    else (others RecvRec.proc p (recvs 2 1 s.P (fun p => (s.third p).rot.rot) (fun p => (s.box p).rot.rot) p)).length),
    ⟨fun _ _ => by simp, fun _ _ => by simp, fun _ _ => by simp, fun _ _ => by simp⟩⟩

/-- The hypotheses of `ath_3d_fft_partial` are met by four processes and any data. -/
example (A : ℤ → ℤ → ℤ → ℕ → ℝ) (b : ℕ → Bufs ℝ) (hb : ∀ p < four.P, Holds 2 0 (four.box p) A (b p).user) :
    ∃ ord b', Arrive four ord ∧ fft3d (dft1 (-1)) four (fun _ _ _ => 0) ord b = some b' := by
  obtain ⟨ord, ho⟩ := arrive_exists four
  obtain ⟨b', h, -⟩ := ath_3d_fft_partial (-1) four (by decide) (by decide) four_tiled four_counts (fun _ _ _ => 0) ord ho A b hb
  exact ⟨ord, b', ho, h⟩

/-- Every array can be held. -/
example : ∀ p < odd.P, Holds 2 0 (odd.box p) spike (spikeBufs p).user := spike_holds

/-- Boxes that do not overlap, as `scratch_fits` asks. -/
example : ∀ p < four.P, ∀ q < four.P, ∀ i j k, (four.box p).has i j k → (four.box q).has i j k → p = q := by
  intro p hp q hq i j k h h'
  have hp : p < 4 := hp
  have hq : q < 4 := hq
  simp only [four, Ext.has] at h h'
  omega

/-- Messages do flow: process 1 of `odd` receives one from process 0 in the second redistribution. -/
example : (recvs 2 0 2 odd.box (fun p => if p = 0 then ⟨0, 8, 0, 7, 0, 8⟩ else ⟨0, 8, 8, 15, 0, 8⟩) 1).map (fun r => (r.proc, r.size)) = [(0, 2 * 5 * 8 * 9), (1, 2 * 4 * 8 * 9)] := by
  decide

end Athena.Fft
