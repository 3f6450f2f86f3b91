import Verif.Grav.Zone

/-!
# The potential of a Grid after `SelfGrav` and `bvals_grav`
-/

namespace Athena.Grav
open Finset Athena.Vl3 Athena.Gen
open Athena.Micro (dim11 dim12 dim21 dim22 dim31 dim32)

/-- The mean of the density over the active zones. -/
noncomputable def meanRho {ns : ℕ} (g : Rng) (U : Arr (Cons ℝ ns)) : ℝ := tot g (fun k j i => (U k j i).d) / tot g (fun _ _ _ => 1)

/-- `P` is the potential of the gas: its ghost zones are the periodic images, its discrete Laplacian is `4πG` times the excess of the density
over its mean in every active zone, and its sum is zero. -/
structure Solved {ns : ℕ} (w : Which) (q : Par) (g : Rng) (U : Arr (Cons ℝ ns)) (P : Arr ℝ) : Prop where
  per : PerGhost w g P
  zero : tot g P = 0
  eq : ∀ k j i, Act g k j i → lapl w q P k j i = q.G4 * ((U k j i).d - meanRho g U)

variable {ns : ℕ} {w : Which} {g : Rng} {q : Par}

theorem icc_range (a b : ℤ) (f : ℤ → ℝ) (h : a ≤ b) : ∑ i ∈ Icc a b, f i = ∑ m ∈ range (b - a + 1).toNat, f (a + m) := by
  symm
  refine sum_bij (fun m _ => a + (m : ℤ)) ?_ ?_ ?_ ?_
  · intro m hm; rw [mem_range] at hm; rw [mem_Icc]; omega
  · intro m _ m' _ h; omega
  · intro i hi; rw [mem_Icc] at hi; exact ⟨(i - a).toNat, by rw [mem_range]; omega, by omega⟩
  · intro m _; rfl

theorem tot_range (h : Ok w g) (f : Arr ℝ) : tot g f = ∑ c ∈ range (n3 g), ∑ b ∈ range (n2 g), ∑ a ∈ range (n1 g), f (g.ks + c) (g.js + b) (g.is + a) := by
  obtain ⟨h1, h2, h3⟩ := h.ij
  unfold tot n1 n2 n3
  rw [icc_range _ _ _ h3]
  refine sum_congr rfl fun c _ => ?_
  rw [icc_range _ _ _ h2]
  refine sum_congr rfl fun b _ => ?_
  rw [icc_range _ _ _ h1]

theorem tot_range' (h : Ok w g) (f : Arr ℝ) : tot g f = ∑ a ∈ range (n1 g), ∑ b ∈ range (n2 g), ∑ c ∈ range (n3 g), f (g.ks + c) (g.js + b) (g.is + a) := by
  rw [tot_range h, sum_comm]
  rw [show ∑ b ∈ range (n2 g), ∑ c ∈ range (n3 g), ∑ a ∈ range (n1 g), f (g.ks + c) (g.js + b) (g.is + a)
    = ∑ b ∈ range (n2 g), ∑ a ∈ range (n1 g), ∑ c ∈ range (n3 g), f (g.ks + c) (g.js + b) (g.is + a) from
    sum_congr rfl fun b _ => sum_comm, sum_comm]

theorem tot_one (h : Ok w g) : tot g (fun _ _ _ => 1) = n1 g * n2 g * n3 g := by
  rw [tot_range' h]; simp; ring

theorem pos_n (h : Ok w g) : 0 < n1 g ∧ 0 < n2 g ∧ 0 < n3 g := by
  obtain ⟨h1, h2, h3⟩ := h.ij
  unfold n1 n2 n3; omega

theorem meanRho_mean (h : Ok w g) (U : Arr (Cons ℝ ns)) :
    meanRho g U = mean (n1 g) (n2 g) (n3 g) (fun a b c => (U (g.ks + c) (g.js + b) (g.is + a)).d) := by
  unfold meanRho mean; rw [tot_one h, tot_range' h]

theorem wrap_per {f : ℤ → ℝ} {a b n : ℤ} {N : ℕ} (hN : (N : ℤ) = b - a + 1) (hf : ∀ x, f (x + N) = f x) (x : ℤ) (hn : n ≤ b - a + 1)
    (h : a - n ≤ x ∧ x ≤ b + n) : f (wrap a b x - a) = f (x - a) := by
  unfold wrap
  split_ifs
  · rw [← hf (x - a), hN]; congr 1; ring
  · rw [← hf (x - (b - a + 1) - a), hN]; congr 1; ring
  · rfl

/-- A potential given by a function that is periodic on the integers. -/
theorem bvalsG_fn (h : Ok w g) {P : Arr ℝ} {ψ : ℤ → ℤ → ℤ → ℝ} (p1 : ∀ i j k, ψ (i + n1 g) j k = ψ i j k) (p2 : ∀ i j k, ψ i (j + n2 g) k = ψ i j k)
    (p3 : ∀ i j k, ψ i j (k + n3 g) = ψ i j k) (hP : ∀ k j i, Act g k j i → P k j i = ψ (i - g.is) (j - g.js) (k - g.ks)) {k j i : ℤ}
    (hk : g.ks - 1 ≤ k ∧ k ≤ g.ke + 1) (hj : g.js - 1 ≤ j ∧ j ≤ g.je + 1) (hi : g.is - 1 ≤ i ∧ i ≤ g.ie + 1)
    (ck : dims w 2 = false → k = g.ks) (cj : dims w 1 = false → j = g.js) :
    bvalsG w g P k j i = ψ (i - g.is) (j - g.js) (k - g.ks) := by
  obtain ⟨h1, h2, h3⟩ := h.ij
  have hng := h.ng
  have hi' := h.hi
  have e1 : ((n1 g : ℕ) : ℤ) = g.ie - g.is + 1 := by unfold n1; omega
  have e2 : ((n2 g : ℕ) : ℤ) = g.je - g.js + 1 := by unfold n2; omega
  have e3 : ((n3 g : ℕ) : ℤ) = g.ke - g.ks + 1 := by unfold n3; omega
  have rk : g.ks - wid (dims w 2) g.ng ≤ k ∧ k ≤ g.ke + wid (dims w 2) g.ng := by
    cases e : dims w 2
    · have := ck e; simp [wid]; omega
    · simp [wid]; omega
  have rj : g.js - wid (dims w 1) g.ng ≤ j ∧ j ≤ g.je + wid (dims w 1) g.ng := by
    cases e : dims w 1
    · have := cj e; simp [wid]; omega
    · simp [wid]; omega
  have mk := wrap_mem (n := 1) (a := g.ks) (b := g.ke) (x := k) (by omega) hk
  have mj := wrap_mem (n := 1) (a := g.js) (b := g.je) (x := j) (by omega) hj
  have mi := wrap_mem (n := 1) (a := g.is) (b := g.ie) (x := i) (by omega) hi
  rw [bvalsG_eq h P rk rj (by omega), hP _ _ _ ⟨mk.1, mk.2, mj.1, mj.2, mi.1, mi.2⟩,
    wrap_per (f := fun x => ψ x _ _) (n := 1) e1 (fun x => p1 x _ _) i (by omega) hi,
    wrap_per (f := fun x => ψ _ x _) (n := 1) e2 (fun x => p2 _ x _) j (by omega) hj,
    wrap_per (f := fun x => ψ _ _ x) (n := 1) e3 (fun x => p3 _ _ x) k (by omega) hk]

theorem Act.out (h : Act g k j i) : (g.ks ≤ k ∧ k ≤ g.ke) ∧ (g.js ≤ j ∧ j ≤ g.je) ∧ (g.is ≤ i ∧ i ≤ g.ie) :=
  ⟨⟨h.k1, h.k2⟩, ⟨h.j1, h.j2⟩, ⟨h.i1, h.i2⟩⟩

/-- Laplacian and sum of a potential given by a periodic function. -/
theorem solved_fn (h : Ok w g) {U : Arr (Cons ℝ ns)} {P : Arr ℝ} {ψ : ℤ → ℤ → ℤ → ℝ} (p1 : ∀ i j k, ψ (i + n1 g) j k = ψ i j k)
    (p2 : ∀ i j k, ψ i (j + n2 g) k = ψ i j k)
    (p3 : ∀ i j k, ψ i j (k + n3 g) = ψ i j k) (hP : ∀ k j i, Act g k j i → P k j i = ψ (i - g.is) (j - g.js) (k - g.ks))
    (hz : ∑ a ∈ range (n1 g), ∑ b ∈ range (n2 g), ∑ c ∈ range (n3 g), ψ a b c = 0)
    (he : ∀ a b c : ℕ, a < n1 g → b < n2 g → c < n3 g →
      (ψ (a-1) b c - 2 * ψ a b c + ψ (a+1) b c) / (q.dx1 * q.dx1) + (ψ a (b-1) c - 2 * ψ a b c + ψ a (b+1) c) / (q.dx2 * q.dx2)
      + (ψ a b (c-1) - 2 * ψ a b c + ψ a b (c+1)) / (q.dx3 * q.dx3) = q.G4 * ((U (g.ks + c) (g.js + b) (g.is + a)).d - meanRho g U)) :
    Solved w q g U (bvalsG w g P) := by
  obtain ⟨h1, h2, h3⟩ := h.ij
  refine ⟨bvalsG_per h P, ?_, fun k j i ha => ?_⟩
  · rw [tot_range' h, ← hz]
    refine sum_congr rfl fun a ha => sum_congr rfl fun b hb => sum_congr rfl fun c hc => ?_
    have ha := mem_range.mp ha
    have hb := mem_range.mp hb
    have hc := mem_range.mp hc
    unfold n1 at ha; unfold n2 at hb; unfold n3 at hc
    rw [bvalsG_fn h p1 p2 p3 hP (by omega) (by omega) (by omega) (fun e => by have := h.ck e; omega) (fun e => by have := h.cj e; omega)]
    congr 1 <;> ring
  · obtain ⟨⟨a1, a2⟩, ⟨b1, b2⟩, c1, c2⟩ := ha.out
    obtain ⟨a, rfl⟩ : ∃ a : ℕ, i = g.is + a := ⟨(i - g.is).toNat, by omega⟩
    obtain ⟨b, rfl⟩ : ∃ b : ℕ, j = g.js + b := ⟨(j - g.js).toNat, by omega⟩
    obtain ⟨c, rfl⟩ : ∃ c : ℕ, k = g.ks + c := ⟨(k - g.ks).toNat, by omega⟩
    have l1 : a < n1 g := by unfold n1; omega
    have l2 : b < n2 g := by unfold n2; omega
    have l3 : c < n3 g := by unfold n3; omega
    rw [← he a b c l1 l2 l3]
    have B := fun k j i => @bvalsG_fn w g h P ψ p1 p2 p3 hP k j i
    have o2 : dims w 2 = false → g.ks + (c : ℤ) = g.ks := fun e => by have := h.ck e; omega
    have o1 : dims w 1 = false → g.js + (b : ℤ) = g.js := fun e => by have := h.cj e; omega
    have s1 : g.is + (a : ℤ) - 1 - g.is = a - 1 := by ring
    have s2 : g.is + (a : ℤ) + 1 - g.is = a + 1 := by ring
    have s3 : g.is + (a : ℤ) - g.is = a := by ring
    have t1 : g.js + (b : ℤ) - 1 - g.js = b - 1 := by ring
    have t2 : g.js + (b : ℤ) + 1 - g.js = b + 1 := by ring
    have t3 : g.js + (b : ℤ) - g.js = b := by ring
    have u1 : g.ks + (c : ℤ) - 1 - g.ks = c - 1 := by ring
    have u2 : g.ks + (c : ℤ) + 1 - g.ks = c + 1 := by ring
    have u3 : g.ks + (c : ℤ) - g.ks = c := by ring
    unfold lapl dsum
    rw [B _ _ (g.is + a) (by omega) (by omega) (by omega) o2 o1, B _ _ (g.is + a - 1) (by omega) (by omega) (by omega) o2 o1,
      B _ _ (g.is + a + 1) (by omega) (by omega) (by omega) o2 o1, s1, s2, s3, t3, u3]
    congr 1
    · congr 1
      cases e : dims w 1
      · have := h.cj e
        have hn : n2 g = 1 := by unfold n2; omega
        have q1 : ψ a ((b:ℤ) + 1) c = ψ a b c := by have := p2 a b c; rwa [hn] at this
        have q2 : ψ a ((b:ℤ) - 1) c = ψ a b c := by
          have := p2 a (b - 1) c
          rw [hn] at this
          rw [← this]; congr 1; push_cast; ring
        simp only [Bool.false_eq_true, if_false]
        rw [q1, q2]; ring
      · have o : ∀ x : ℤ, dims w 1 = false → x = g.js := fun x e' => by rw [e] at e'; cases e'
        simp only [if_true]
        rw [B _ (g.js + b - 1) (g.is + a) (by omega) (by omega) (by omega) o2 (o _), B _ (g.js + b + 1) (g.is + a) (by omega) (by omega) (by omega) o2 (o _), s3, t1, t2, u3]
    · cases e : dims w 2
      · have := h.ck e
        have hn : n3 g = 1 := by unfold n3; omega
        have q1 : ψ a b ((c:ℤ) + 1) = ψ a b c := by have := p3 a b c; rwa [hn] at this
        have q2 : ψ a b ((c:ℤ) - 1) = ψ a b c := by
          have := p3 a b (c - 1)
          rw [hn] at this
          rw [← this]; congr 1; push_cast; ring
        simp only [Bool.false_eq_true, if_false]
        rw [q1, q2]; ring
      · have o : ∀ x : ℤ, dims w 2 = false → x = g.ks := fun x e' => by rw [e] at e'; cases e'
        simp only [if_true]
        rw [B (g.ks + c - 1) (g.js + b) (g.is + a) (by omega) (by omega) (by omega) (o _) o1, B (g.ks + c + 1) (g.js + b) (g.is + a) (by omega) (by omega) (by omega) (o _) o1, s3, t3, u1, u2]

theorem solved_d3 (hq : q.Ok) (h : Ok .d3 g) (U : Arr (Cons ℝ ns)) (P : Arr ℝ) : Solved .d3 q g U (bvalsG .d3 g (solve q .d3 g U P)) := by
  obtain ⟨m1, m2, m3⟩ := pos_n h
  refine solved_fn h (ψ := Psi q (n1 g) (n2 g) (n3 g) (fun a b c => (U (g.ks + c) (g.js + b) (g.is + a)).d)) (fun i j k => Psi_per1 q m1 _ i j k)
    (fun i j k => Psi_per2 q m2 _ i j k) (fun i j k => Psi_per3 q m3 _ i j k) (fun k j i ha => ?_) (Psi_mean m1 m2 m3 _) (fun a b c ha hb hc => ?_)
  · obtain ⟨⟨a1, a2⟩, ⟨b1, b2⟩, c1, c2⟩ := ha.out
    simp only [solve]
    rw [loop3_in _ _ a1 a2 b1 b2 c1 c2, potential3_eq q (fun a b c => ⟨Nat.zero_le _, Nat.zero_le _, Nat.zero_le _⟩)]
    rw [Int.toNat_of_nonneg (by omega), Int.toNat_of_nonneg (by omega), Int.toNat_of_nonneg (by omega)]
  · rw [Psi_poisson hq m1 m2 m3 _ ha hb hc, meanRho_mean h]

theorem solved_d2 (hq : q.Ok) (h : Ok .d2 g) (U : Arr (Cons ℝ ns)) (P : Arr ℝ) : Solved .d2 q g U (bvalsG .d2 g (solve q .d2 g U P)) := by
  obtain ⟨m1, m2, m3⟩ := pos_n h
  have ck := h.ck dim22
  have hn : n3 g = 1 := by unfold n3; omega
  set d : ℕ → ℕ → ℕ → ℝ := fun a b _ => (U g.ks (g.js + b) (g.is + a)).d with hd
  refine solved_fn h (ψ := fun i j k => Psi q (n1 g) (n2 g) 1 d i j k) (fun i j k => Psi_per1 q m1 _ i j k)
    (fun i j k => Psi_per2 q m2 _ i j k) (fun i j k => by have := Psi_per3 (N1 := n1 g) (N2 := n2 g) q Nat.one_pos d i j k; rwa [hn])
    (fun k j i ha => ?_) (by rw [hn]; exact Psi_mean m1 m2 Nat.one_pos d) (fun a b c ha hb hc => ?_)
  · obtain ⟨⟨a1, a2⟩, ⟨b1, b2⟩, c1, c2⟩ := ha.out
    simp only [solve]
    rw [loop3_in _ _ a1 (by omega) b1 b2 c1 c2, potential2_eq q (fun a b => ⟨Nat.zero_le _, Nat.zero_le _⟩)]
    rw [Int.toNat_of_nonneg (by omega), Int.toNat_of_nonneg (by omega)]
    rw [show k - g.ks = 0 by omega]
  · have c0 : c = 0 := by omega
    subst c0
    rw [Psi_poisson hq m1 m2 Nat.one_pos d ha hb Nat.one_pos, meanRho_mean h, hn]
    have em : mean (n1 g) (n2 g) 1 d = mean (n1 g) (n2 g) 1 (fun a b c => (U (g.ks + c) (g.js + b) (g.is + a)).d) := by
      unfold mean; simp [hd]
    rw [em]
    simp [hd]

theorem solved_d1 (hq : q.Ok) (h : Ok .d1 g) (U : Arr (Cons ℝ ns)) (P : Arr ℝ) (hm : q.rho0 = meanRho g U) :
    Solved .d1 q g U (bvalsG .d1 g (solve q .d1 g U P)) := by
  obtain ⟨m1, m2, m3⟩ := pos_n h
  have ck := h.ck dim12
  have cj := h.cj dim11
  have h3 : n3 g = 1 := by unfold n3; omega
  have h2 : n2 g = 1 := by unfold n2; omega
  have htwo := h.two
  have hN : 2 ≤ n1 g := by unfold n1; omega
  set S : ℤ → ℝ := fun i => q.G4 * (q.dx1 * q.dx1) * ((U g.ks g.js i).d - q.rho0) with hS
  have s0 : ∑ m ∈ range (n1 g), S (g.is + m) = 0 := by
    rw [hS, ← mul_sum, sum_sub_distrib, sum_const, card_range, nsmul_eq_mul, hm, meanRho_mean h, mean, h2, h3]
    have : (n1 g : ℝ) ≠ 0 := by positivity
    simp only [sum_range_one, Nat.cast_zero, add_zero, Nat.cast_one, mul_one]
    rw [mul_div_cancel₀ _ this, sub_self, mul_zero]
  obtain ⟨N, hNN⟩ : ∃ N : ℤ, N = (n1 g : ℕ) := ⟨_, rfl⟩
  have Npos : 0 < N := by omega
  refine solved_fn h (ψ := fun i _ _ => febs g.is (n1 g) S (P g.ks g.js) (g.is + i % N)) (fun i j k => by simp only [← hNN, Int.add_emod_right])
    (fun _ _ _ => rfl) (fun _ _ _ => rfl) (fun k j i ha => ?_) ?_ (fun a b c ha hb hc => ?_)
  · obtain ⟨⟨a1, a2⟩, ⟨b1, b2⟩, c1, c2⟩ := ha.out
    simp only [solve]
    rw [if_pos ⟨by omega, by omega⟩, Int.emod_eq_of_lt (by omega) (by rw [hNN]; unfold n1; omega)]
    congr 1; ring
  · rw [h2, h3]
    simp only [sum_range_one]
    rw [← febs_mean (is := g.is) (S := S) (P := P g.ks g.js) hN]
    refine sum_congr rfl fun m hm => ?_
    rw [Int.emod_eq_of_lt (by omega) (by have := mem_range.mp hm; omega)]
  · have b0 : b = 0 := by omega
    have c0 : c = 0 := by omega
    subst b0 c0
    have f := febs_poisson (P := P g.ks g.js) hN s0 ha
    have e0 : (a : ℤ) % N = a := Int.emod_eq_of_lt (by omega) (by omega)
    have e1 : ((a : ℤ) - 1) % N = ((a + n1 g - 1) % n1 g : ℕ) := by
      rw [← Int.add_emod_right ((a : ℤ) - 1) N, hNN]
      rw [show (a : ℤ) - 1 + (n1 g : ℕ) = ((a + n1 g - 1 : ℕ) : ℤ) by omega]
      push_cast; rfl
    have e2 : ((a : ℤ) + 1) % N = ((a + 1) % n1 g : ℕ) := by rw [hNN]; push_cast; rfl
    rw [e0, e1, e2, f, hS]
    have p : 0 < q.dx1 := hq.dx1
    rw [hm]
    simp only [Nat.cast_zero, add_zero]
    field_simp
    ring

/-- `SelfGrav` and `bvals_grav` together; in one dimension `grav_mean_rho` has to be the mean density. -/
theorem solveG_solved (hq : q.Ok) (h : Ok w g) (S : GSt ns) (hm : w = .d1 → q.rho0 = meanRho g S.U) :
    Solved w q g S.U (solveG w q g S).Phi := by
  cases w
  · exact solved_d1 hq h S.U S.Phi (hm rfl)
  · exact solved_d2 hq h S.U S.Phi
  · exact solved_d3 hq h S.U S.Phi

end Athena.Grav
