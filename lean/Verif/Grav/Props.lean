import Verif.Grav.Poisson

/-!
# Self-gravity: properties C75, C76, C77
-/

namespace Athena.Grav
open Finset Athena.Vl3 Athena.Gen
open Athena.Micro (dim11 dim12 dim21 dim22 dim31 dim32)

variable {ns : ℕ} {w : Which} {g : Rng} {q : Par}

/-! ## C75: the potential -/

/-- After `SelfGrav` and `bvals_grav` the potential solves the discrete Poisson equation of the gas on the Grid with periodic boundaries and its
mean is zero: in two and three dimensions whatever `grav_mean_rho` is, in one dimension if it is the mean density. -/
theorem potential_solves_poisson (hq : q.Ok) (h : Ok w g) (S : GSt ns) (hm : w = .d1 → q.rho0 = meanRho g S.U) :
    Solved w q g S.U (solveG w q g S).Phi := solveG_solved hq h S hm

theorem lapl_sub (P O : Arr ℝ) (k j i : ℤ) : lapl w q (fun k j i => P k j i - O k j i) k j i = lapl w q P k j i - lapl w q O k j i := by
  unfold lapl dsum; split_ifs <;> ring

theorem PerGhost.sub {P O : Arr ℝ} (hP : PerGhost w g P) (hO : PerGhost w g O) : PerGhost w g (fun k j i => P k j i - O k j i) :=
  ⟨fun k j i a b c d e f => by simp only [hP.i k j i a b c d e f, hO.i k j i a b c d e f],
   fun z k j i a b c d e f => by simp only [hP.j z k j i a b c d e f, hO.j z k j i a b c d e f],
   fun z k j i a b c d e f => by simp only [hP.k z k j i a b c d e f, hO.k z k j i a b c d e f]⟩

theorem tot_nonneg {f : Arr ℝ} (h : ∀ k j i, 0 ≤ f k j i) : 0 ≤ tot g f :=
  sum_nonneg fun _ _ => sum_nonneg fun _ _ => sum_nonneg fun _ _ => h _ _ _

theorem tot_zero {f : Arr ℝ} (h : ∀ k j i, 0 ≤ f k j i) (h0 : tot g f = 0) {k j i : ℤ} (ha : Act g k j i) : f k j i = 0 := by
  unfold tot at h0
  have a := (sum_eq_zero_iff_of_nonneg (fun k _ => sum_nonneg fun j _ => sum_nonneg fun i _ => h k j i)).mp h0 k (mem_Icc.mpr ⟨ha.k1, ha.k2⟩)
  have b := (sum_eq_zero_iff_of_nonneg (fun j _ => sum_nonneg fun i _ => h k j i)).mp a j (mem_Icc.mpr ⟨ha.j1, ha.j2⟩)
  exact (sum_eq_zero_iff_of_nonneg (fun i _ => h k j i)).mp b i (mem_Icc.mpr ⟨ha.i1, ha.i2⟩)

theorem dsum_nonneg {a b c : ℝ} (ha : 0 ≤ a) (hb : 0 ≤ b) (hc : 0 ≤ c) : 0 ≤ dsum w a b c := by
  unfold dsum; split_ifs <;> linarith

/-- A periodic function whose product with its Laplacian sums to zero has no gradient. -/
theorem no_grad (hq : q.Ok) (h : Ok w g) {P : Arr ℝ} (hP : PerGhost w g P) (h0 : tot g (fun k j i => P k j i * lapl w q P k j i) = 0) :
    ∀ k j i, Act g k j i → P k j i = P k j (i-1) ∧ (dims w 1 = true → P k j i = P k (j-1) i) ∧ (dims w 2 = true → P k j i = P (k-1) j i) := by
  intro k j i ha
  rw [tot_grad h hP] at h0
  have h0' := neg_eq_zero.mp h0
  obtain ⟨d1, d2, d3, -⟩ := hq
  have z := tot_zero (fun k j i => dsum_nonneg (by positivity) (by positivity) (by positivity)) h0' ha
  have sq : ∀ {x d : ℝ}, 0 < d → x ^ 2 / (d * d) = 0 → x = 0 := by
    intro x d hd hx
    rcases div_eq_zero_iff.mp hx with h | h
    · exact pow_eq_zero_iff (two_ne_zero) |>.mp h
    · exact absurd h (by positivity)
  have n1 : 0 ≤ (P k j i - P k j (i-1)) ^ 2 / (q.dx1 * q.dx1) := by positivity
  have n2 : 0 ≤ (P k j i - P k (j-1) i) ^ 2 / (q.dx2 * q.dx2) := by positivity
  have n3 : 0 ≤ (P k j i - P (k-1) j i) ^ 2 / (q.dx3 * q.dx3) := by positivity
  unfold dsum at z
  cases e1 : dims w 1 <;> cases e2 : dims w 2 <;> simp only [e1, e2, if_true, if_false, Bool.false_eq_true] at z
  · refine ⟨sub_eq_zero.mp (sq d1 (by linarith)), by simp, by simp⟩
  · have := dims12 w e2; rw [e1] at this; cases this
  · refine ⟨sub_eq_zero.mp (sq d1 (by linarith)), fun _ => sub_eq_zero.mp (sq d2 (by linarith)), by simp⟩
  · refine ⟨sub_eq_zero.mp (sq d1 (by linarith)), fun _ => sub_eq_zero.mp (sq d2 (by linarith)), fun _ => sub_eq_zero.mp (sq d3 (by linarith))⟩

/-- ... and so is constant on the active zones. -/
theorem constant (hq : q.Ok) (h : Ok w g) {P : Arr ℝ} (hP : PerGhost w g P) (h0 : tot g (fun k j i => P k j i * lapl w q P k j i) = 0) :
    ∀ k j i, Act g k j i → P k j i = P g.ks g.js g.is := by
  have ng := no_grad hq h hP h0
  obtain ⟨h1, h2, h3⟩ := h.ij
  have s1 : ∀ n : ℕ, ∀ k j, g.ks ≤ k → k ≤ g.ke → g.js ≤ j → j ≤ g.je → g.is + n ≤ g.ie → P k j (g.is + n) = P k j g.is := by
    intro n
    induction n with
    | zero => intro k j _ _ _ _ _; simp
    | succ n ih =>
      intro k j a b c d e
      push_cast at e ⊢
      rw [(ng k j (g.is + (n + 1)) ⟨a, b, c, d, by omega, e⟩).1, ← ih k j a b c d (by omega)]
      congr 1; ring
  have s2 : ∀ n : ℕ, ∀ k, g.ks ≤ k → k ≤ g.ke → g.js + n ≤ g.je → P k (g.js + n) g.is = P k g.js g.is := by
    intro n
    induction n with
    | zero => intro k _ _ _; simp
    | succ n ih =>
      intro k a b e
      push_cast at e ⊢
      have e1 : dims w 1 = true := by
        cases e1 : dims w 1
        · have := h.cj e1; omega
        · rfl
      rw [(ng k (g.js + (n + 1)) g.is ⟨a, b, by omega, e, le_rfl, h1⟩).2.1 e1, ← ih k a b (by omega)]
      congr 1; ring
  have s3 : ∀ n : ℕ, g.ks + n ≤ g.ke → P (g.ks + n) g.js g.is = P g.ks g.js g.is := by
    intro n
    induction n with
    | zero => intro _; simp
    | succ n ih =>
      intro e
      push_cast at e ⊢
      have e1 : dims w 2 = true := by
        cases e1 : dims w 2
        · have := h.ck e1; omega
        · rfl
      rw [(ng (g.ks + (n + 1)) g.js g.is ⟨by omega, e, le_rfl, h2, le_rfl, h1⟩).2.2 e1, ← ih (by omega)]
      congr 1; ring
  intro k j i ha
  obtain ⟨⟨a1, a2⟩, ⟨b1, b2⟩, c1, c2⟩ := ha.out
  obtain ⟨a, rfl⟩ : ∃ a : ℕ, i = g.is + a := ⟨(i - g.is).toNat, by omega⟩
  obtain ⟨b, rfl⟩ : ∃ b : ℕ, j = g.js + b := ⟨(j - g.js).toNat, by omega⟩
  obtain ⟨c, rfl⟩ : ∃ c : ℕ, k = g.ks + c := ⟨(k - g.ks).toNat, by omega⟩
  rw [s1 a _ _ a1 a2 b1 b2 c2, s2 b _ a1 a2 b2, s3 c a2]

/-- There is only one such potential, so it depends on nothing but the density. -/
theorem potential_unique (hq : q.Ok) (h : Ok w g) {U : Arr (Cons ℝ ns)} {P O : Arr ℝ} (hP : Solved w q g U P) (hO : Solved w q g U O)
    {k j i : ℤ} (ha : Act g k j i) : P k j i = O k j i := by
  have hd := hP.per.sub hO.per
  have z : tot g (fun k j i => (P k j i - O k j i) * lapl w q (fun k j i => P k j i - O k j i) k j i) = 0 := by
    rw [tot_congr (f' := fun _ _ _ => 0)]
    · simp [tot]
    · intro k j i a b c d e f
      rw [lapl_sub, hP.eq k j i ⟨a, b, c, d, e, f⟩, hO.eq k j i ⟨a, b, c, d, e, f⟩, sub_self, mul_zero]
  have cst := constant hq h hd z
  have t : tot g (fun k j i => P k j i - O k j i) = 0 := by rw [tot_sub, hP.zero, hO.zero, sub_zero]
  rw [tot_congr (fun k j i a b c d e f => cst k j i ⟨a, b, c, d, e, f⟩)] at t
  have t' : tot g (fun _ _ _ => (P g.ks g.js g.is - O g.ks g.js g.is) * 1) = 0 := by simpa using t
  rw [tot_mul, tot_one h] at t'
  obtain ⟨m1, m2, m3⟩ := pos_n h
  have : (n1 g * n2 g * n3 g : ℝ) ≠ 0 := by positivity
  have := (mul_eq_zero.mp t').resolve_right this
  have := cst k j i ha
  linarith

/-- The potential does not depend on how the Domain is divided into Grids. -/
theorem potential_any_grids (N1 N2 N3 : ℕ) {t t' : ℕ → ℕ → ℕ → Tile} (h : Tiles t) (h' : Tiles t') (d : ℕ → ℕ → ℕ → ℝ) (i j k : ℕ) :
    potential3 q N1 N2 N3 t d i j k = potential3 q N1 N2 N3 t' d i j k := by
  rw [potential3_eq q h, potential3_eq q h']

theorem potential2_any_grids (N1 N2 : ℕ) {t t' : ℕ → ℕ → Tile} (h : ∀ a b, (t a b).D1 ≤ a ∧ (t a b).D2 ≤ b) (h' : ∀ a b, (t' a b).D1 ≤ a ∧ (t' a b).D2 ≤ b)
    (d : ℕ → ℕ → ℝ) (i j : ℕ) : potential2 q N1 N2 t d i j = potential2 q N1 N2 t' d i j := by
  rw [potential2_eq q h, potential2_eq q h']

/-- In one dimension a `grav_mean_rho` other than the mean density gives something else than the potential of the gas. -/
theorem potential_1d_false (hq : q.Ok) (h : Ok .d1 g) (h3 : 3 ≤ g.ie - g.is + 1) (S : GSt ns) (hm : q.rho0 ≠ meanRho g S.U) :
    ¬ Solved .d1 q g S.U (solveG .d1 q g S).Phi := by
  intro hs
  have cj := h.cj dim11
  have ck := h.ck dim12
  have e := hs.eq g.ks g.js (g.is + 1) ⟨le_rfl, by omega, le_rfl, by omega, by omega, by omega⟩
  have ha : ∀ i, g.is ≤ i → i ≤ g.ie → (solveG .d1 q g S).Phi g.ks g.js i
      = febs g.is (n1 g) (fun i => q.G4 * (q.dx1 * q.dx1) * ((S.U g.ks g.js i).d - q.rho0)) (S.Phi g.ks g.js) i := by
    intro i h1 h2
    show bvalsG .d1 g (solve q .d1 g S.U S.Phi) g.ks g.js i = _
    rw [bvalsG_active h _ ⟨le_rfl, by omega⟩ ⟨le_rfl, by omega⟩ ⟨h1, h2⟩]
    simp [solve]
  set Q : ℤ → ℝ := fun i => q.G4 * (q.dx1 * q.dx1) * ((S.U g.ks g.js i).d - q.rho0) with hQ
  have hN : 2 ≤ n1 g := by unfold n1; omega
  obtain ⟨L, hL, hv⟩ := febs_val (is := g.is) (S := Q) (P := S.Phi g.ks g.js) hN
  have v : ∀ m : ℕ, m < 3 → (solveG .d1 q g S).Phi g.ks g.js (g.is + m)
      = clo g.is ((∑ m ∈ range (n1 g), ((m : ℝ) + 1) * Q (g.is + m)) / (n1 g)) Q m - (∑ m ∈ range (n1 g), L m) / (n1 g) := by
    intro m hm
    have : m < n1 g := by unfold n1; omega
    rw [ha _ (by omega) (by omega), hv m this, hL m this]
  have v0 := v 0 (by omega)
  have v1 := v 1 (by omega)
  have v2 := v 2 (by omega)
  have r := clo_rec (is := g.is) (S := Q) ((∑ m ∈ range (n1 g), ((m : ℝ) + 1) * Q (g.is + m)) / (n1 g)) 0
  unfold lapl dsum at e
  simp only [dim11, dim12, Bool.false_eq_true, if_false, add_zero] at e
  rw [show g.is + 1 - 1 = g.is + ((0 : ℕ) : ℤ) by simp, show g.is + 1 + 1 = g.is + ((2 : ℕ) : ℤ) by push_cast; ring,
    show g.is + 1 = g.is + ((1 : ℕ) : ℤ) by push_cast; ring, v0, v1, v2] at e
  simp only [zero_add] at r
  have hd := hq.dx1
  have hG := hq.G4
  have e' := (div_eq_iff (by positivity)).mp e
  rw [show (1 : ℕ) = 0 + 1 from rfl] at e'
  have : Q (g.is + ((1 : ℕ) : ℤ)) = q.G4 * ((S.U g.ks g.js (g.is + ((1 : ℕ) : ℤ))).d - meanRho g S.U) * (q.dx1 * q.dx1) := by
    rw [← r, ← e']
    ring
  rw [hQ] at this
  have hne : q.G4 * (q.dx1 * q.dx1) ≠ 0 := by positivity
  have : q.G4 * (q.dx1 * q.dx1) * (q.rho0 - meanRho g S.U) = 0 := by linear_combination -this
  exact hm (sub_eq_zero.mp ((mul_eq_zero.mp this).resolve_left hne))

/-! ## C76: momentum -/

theorem copy_old (h : Ok w g) (S : GSt ns) {k j i : ℤ} (hk : g.ks - wid (dims w 2) g.ng ≤ k ∧ k ≤ g.ke + wid (dims w 2) g.ng)
    (hj : g.js - wid (dims w 1) g.ng ≤ j ∧ j ≤ g.je + wid (dims w 1) g.ng) (hi : g.is - g.ng ≤ i ∧ i ≤ g.ie + g.ng) :
    (solveG w q g S).old k j i = S.Phi k j i := loop3_in _ _ hk.1 hk.2 hj.1 hj.2 hi.1 hi.2

theorem copy_per (h : Ok w g) (S : GSt ns) (hP : PerGhost w g S.Phi) : PerGhost w g (solveG w q g S).old := by
  have hng := h.ng
  have hN := h.hi
  refine ⟨fun k j i a b c d e f => ?_, fun z k j i a b c d e f => ?_, fun z k j i a b c d e f => ?_⟩
  · rw [copy_old h S ⟨a, b⟩ ⟨c, d⟩ (by omega), copy_old h S ⟨a, b⟩ ⟨c, d⟩ (by omega), hP.i k j i a b c d e f]
  · have := h.hj z
    have ew : wid (dims w 1) g.ng = g.ng := by simp [wid, z]
    rw [copy_old h S ⟨a, b⟩ (by omega) ⟨c, d⟩, copy_old h S ⟨a, b⟩ (by omega) ⟨c, d⟩, hP.j z k j i a b c d e f]
  · have := h.hk z
    have ew : wid (dims w 2) g.ng = g.ng := by simp [wid, z]
    rw [copy_old h S (by omega) ⟨a, b⟩ ⟨c, d⟩, copy_old h S (by omega) ⟨a, b⟩ ⟨c, d⟩, hP.k z k j i a b c d e f]

/-- The density of a zone after a cycle. -/
theorem cycle_d {F : Flx ns} {S : GSt ns} {k j i : ℤ} (ha : Act g k j i) :
    ((cycleG w q g F S).U k j i).d = (S.U k j i).d - ddif w (q.dt / q.dx1) (q.dt / q.dx2) (q.dt / q.dx3) (fun k j i => (F.F1 k j i).d)
      (fun k j i => (F.F2 k j i).d) (fun k j i => (F.F3 k j i).d) k j i := by
  unfold cycleG
  rw [(correct_val w g q _ ha).1]
  show (fluxes w q g F (source w q g F S.Phi S.U) k j i).d = _
  rw [(fluxes_val w g q F _ ha).1, (source_val w g q F _ _ ha).1]

theorem mass_cycle (h : Ok w g) {F : Flx ns} (hF : Matched w g F) (S : GSt ns) :
    tot g (fun k j i => ((cycleG w q g F S).U k j i).d) = tot g (fun k j i => (S.U k j i).d) := by
  rw [tot_congr (fun k j i a b c d e f => cycle_d ⟨a, b, c, d, e, f⟩), tot_sub,
    tot_ddif h _ _ _ (hF.ends (fun u => u.d) (fun u => u.d) (fun u => u.d)), sub_zero]

theorem momentum_cycle (h : Ok w g) {F : Flx ns} (hF : Matched w g F) (S : GSt ns) (hP : PerGhost w g S.Phi) :
    tot g (fun k j i => ((cycleG w q g F S).U k j i).M1) = tot g (fun k j i => (S.U k j i).M1) ∧
    tot g (fun k j i => ((cycleG w q g F S).U k j i).M2) = tot g (fun k j i => (S.U k j i).M2) ∧
    tot g (fun k j i => ((cycleG w q g F S).U k j i).M3) = tot g (fun k j i => (S.U k j i).M3) := by
  have hn : PerGhost w g (solveG w q g (advanceG w q g F S)).Phi := bvalsG_per h _
  have ho : PerGhost w g (solveG w q g (advanceG w q g F S)).old := copy_per h (advanceG w q g F S) hP
  refine ⟨?_, ?_, ?_⟩
  · have e : ∀ k j i, Act g k j i → ((cycleG w q g F S).U k j i).M1 = (S.U k j i).M1
        - ddif w ((q.dt / q.dx1)) ((q.dt / q.dx2)) ((q.dt / q.dx3)) (fun k j i => (T1 q w S.Phi k j i).1) (fun k j i => (T2 q w S.Phi k j i).1)
          (fun k j i => (T3 q S.Phi k j i).1) k j i
        - ddif w (q.dt / q.dx1) (q.dt / q.dx2) (q.dt / q.dx3) (fun k j i => (F.F1 k j i).Mx) (fun k j i => (F.F2 k j i).Mz)
          (fun k j i => (F.F3 k j i).My) k j i
        - ddif w (0.5 * (q.dt / q.dx1)) (0.5 * (q.dt / q.dx2)) (0.5 * (q.dt / q.dx3)) (fun k j i => (T1 q w (solveG w q g (advanceG w q g F S)).Phi k j i).1) (fun k j i => (T2 q w (solveG w q g (advanceG w q g F S)).Phi k j i).1)
          (fun k j i => (T3 q (solveG w q g (advanceG w q g F S)).Phi k j i).1) k j i
        + ddif w (0.5 * (q.dt / q.dx1)) (0.5 * (q.dt / q.dx2)) (0.5 * (q.dt / q.dx3)) (fun k j i => (T1 q w (solveG w q g (advanceG w q g F S)).old k j i).1) (fun k j i => (T2 q w (solveG w q g (advanceG w q g F S)).old k j i).1)
          (fun k j i => (T3 q (solveG w q g (advanceG w q g F S)).old k j i).1) k j i := fun k j i ha => by
      unfold cycleG
      rw [(correct_val w g q _ ha).2.1]
      rw [show ((solveG w q g (advanceG w q g F S)).U k j i).M1 = (fluxes w q g F (source w q g F S.Phi S.U) k j i).M1 from rfl,
        (fluxes_val w g q F _ ha).2.1, (source_val w g q F _ _ ha).2.1]
    rw [tot_congr (fun k j i a b c d e' f => e k j i ⟨a, b, c, d, e', f⟩), tot_add, tot_sub, tot_sub, tot_sub,
      tot_ddif h _ _ _ (T_ends h hn (fun t => t.1)), tot_ddif h _ _ _ (T_ends h ho (fun t => t.1)), tot_ddif h _ _ _ (T_ends h hP (fun t => t.1)),
      tot_ddif h _ _ _ (hF.ends (fun u => u.Mx) (fun u => u.Mz) (fun u => u.My))]
    ring
  · have e : ∀ k j i, Act g k j i → ((cycleG w q g F S).U k j i).M2 = (S.U k j i).M2
        - ddif w ((q.dt / q.dx1)) ((q.dt / q.dx2)) ((q.dt / q.dx3)) (fun k j i => (T1 q w S.Phi k j i).2.1) (fun k j i => (T2 q w S.Phi k j i).2.1)
          (fun k j i => (T3 q S.Phi k j i).2.1) k j i
        - ddif w (q.dt / q.dx1) (q.dt / q.dx2) (q.dt / q.dx3) (fun k j i => (F.F1 k j i).My) (fun k j i => (F.F2 k j i).Mx)
          (fun k j i => (F.F3 k j i).Mz) k j i
        - ddif w (0.5 * (q.dt / q.dx1)) (0.5 * (q.dt / q.dx2)) (0.5 * (q.dt / q.dx3)) (fun k j i => (T1 q w (solveG w q g (advanceG w q g F S)).Phi k j i).2.1) (fun k j i => (T2 q w (solveG w q g (advanceG w q g F S)).Phi k j i).2.1)
          (fun k j i => (T3 q (solveG w q g (advanceG w q g F S)).Phi k j i).2.1) k j i
        + ddif w (0.5 * (q.dt / q.dx1)) (0.5 * (q.dt / q.dx2)) (0.5 * (q.dt / q.dx3)) (fun k j i => (T1 q w (solveG w q g (advanceG w q g F S)).old k j i).2.1) (fun k j i => (T2 q w (solveG w q g (advanceG w q g F S)).old k j i).2.1)
          (fun k j i => (T3 q (solveG w q g (advanceG w q g F S)).old k j i).2.1) k j i := fun k j i ha => by
      unfold cycleG
      rw [(correct_val w g q _ ha).2.2.1]
      rw [show ((solveG w q g (advanceG w q g F S)).U k j i).M2 = (fluxes w q g F (source w q g F S.Phi S.U) k j i).M2 from rfl,
        (fluxes_val w g q F _ ha).2.2.1, (source_val w g q F _ _ ha).2.2.1]
    rw [tot_congr (fun k j i a b c d e' f => e k j i ⟨a, b, c, d, e', f⟩), tot_add, tot_sub, tot_sub, tot_sub,
      tot_ddif h _ _ _ (T_ends h hn (fun t => t.2.1)), tot_ddif h _ _ _ (T_ends h ho (fun t => t.2.1)), tot_ddif h _ _ _ (T_ends h hP (fun t => t.2.1)),
      tot_ddif h _ _ _ (hF.ends (fun u => u.My) (fun u => u.Mx) (fun u => u.Mz))]
    ring
  · have e : ∀ k j i, Act g k j i → ((cycleG w q g F S).U k j i).M3 = (S.U k j i).M3
        - ddif w ((q.dt / q.dx1)) ((q.dt / q.dx2)) ((q.dt / q.dx3)) (fun k j i => (T1 q w S.Phi k j i).2.2) (fun k j i => (T2 q w S.Phi k j i).2.2)
          (fun k j i => (T3 q S.Phi k j i).2.2) k j i
        - ddif w (q.dt / q.dx1) (q.dt / q.dx2) (q.dt / q.dx3) (fun k j i => (F.F1 k j i).Mz) (fun k j i => (F.F2 k j i).My)
          (fun k j i => (F.F3 k j i).Mx) k j i
        - ddif w (0.5 * (q.dt / q.dx1)) (0.5 * (q.dt / q.dx2)) (0.5 * (q.dt / q.dx3)) (fun k j i => (T1 q w (solveG w q g (advanceG w q g F S)).Phi k j i).2.2) (fun k j i => (T2 q w (solveG w q g (advanceG w q g F S)).Phi k j i).2.2)
          (fun k j i => (T3 q (solveG w q g (advanceG w q g F S)).Phi k j i).2.2) k j i
        + ddif w (0.5 * (q.dt / q.dx1)) (0.5 * (q.dt / q.dx2)) (0.5 * (q.dt / q.dx3)) (fun k j i => (T1 q w (solveG w q g (advanceG w q g F S)).old k j i).2.2) (fun k j i => (T2 q w (solveG w q g (advanceG w q g F S)).old k j i).2.2)
          (fun k j i => (T3 q (solveG w q g (advanceG w q g F S)).old k j i).2.2) k j i := fun k j i ha => by
      unfold cycleG
      rw [(correct_val w g q _ ha).2.2.2.1]
      rw [show ((solveG w q g (advanceG w q g F S)).U k j i).M3 = (fluxes w q g F (source w q g F S.Phi S.U) k j i).M3 from rfl,
        (fluxes_val w g q F _ ha).2.2.2.1, (source_val w g q F _ _ ha).2.2.2.1]
    rw [tot_congr (fun k j i a b c d e' f => e k j i ⟨a, b, c, d, e', f⟩), tot_add, tot_sub, tot_sub, tot_sub,
      tot_ddif h _ _ _ (T_ends h hn (fun t => t.2.2)), tot_ddif h _ _ _ (T_ends h ho (fun t => t.2.2)), tot_ddif h _ _ _ (T_ends h hP (fun t => t.2.2)),
      tot_ddif h _ _ _ (hF.ends (fun u => u.Mz) (fun u => u.My) (fun u => u.Mx))]
    ring

theorem run_per (h : Ok w g) {q : ℕ → Par} {F : ℕ → Flx ns} {S : GSt ns} (n : ℕ) : PerGhost w g (runG w q g F S n).Phi := by
  cases n with
  | zero => exact bvalsG_per h _
  | succ n => exact bvalsG_per h _

/-- Self-gravity keeps mass and all three components of momentum, in runs of any length with any time steps and any fluxes that match at opposite
ends of the Grid. -/
theorem momentum_conserved_run (h : Ok w g) (q : ℕ → Par) (F : ℕ → Flx ns) (hF : ∀ n, Matched w g (F n)) (S : GSt ns) (n : ℕ) :
    tot g (fun k j i => ((runG w q g F S n).U k j i).d) = tot g (fun k j i => (S.U k j i).d) ∧
    tot g (fun k j i => ((runG w q g F S n).U k j i).M1) = tot g (fun k j i => (S.U k j i).M1) ∧
    tot g (fun k j i => ((runG w q g F S n).U k j i).M2) = tot g (fun k j i => (S.U k j i).M2) ∧
    tot g (fun k j i => ((runG w q g F S n).U k j i).M3) = tot g (fun k j i => (S.U k j i).M3) := by
  induction n with
  | zero => exact ⟨rfl, rfl, rfl, rfl⟩
  | succ n ih =>
    obtain ⟨i1, i2, i3, i4⟩ := ih
    have m := mass_cycle (q := q n) h (hF n) (runG w q g F S n)
    obtain ⟨m1, m2, m3⟩ := momentum_cycle (q := q n) h (hF n) (runG w q g F S n) (run_per h n)
    exact ⟨m.trans i1, m1.trans i2, m2.trans i3, m3.trans i4⟩

/-- A potential that is a quadratic polynomial of the position. -/
noncomputable def quad (q : Par) (w : Which) (a b1 b2 b3 c11 c22 c33 c12 c13 c23 : ℝ) : Arr ℝ := fun k j i =>
  let x := i * q.dx1
  let y := if dims w 1 then j * q.dx2 else 0
  let z := if dims w 2 then k * q.dx3 else 0
  a + b1 * x + b2 * y + b3 * z + c11 * x ^ 2 + c22 * y ^ 2 + c33 * z ^ 2 + c12 * x * y + c13 * x * z + c23 * y * z

/-- In such a potential, the momentum that the source terms add to a zone is exactly the time step times the density that Poisson's equation
gives for it times minus the gradient at the centre of the zone. -/
theorem force_exact (hq : q.Ok) (F : Flx ns) (U : Arr (Cons ℝ ns)) (a b1 b2 b3 c11 c22 c33 c12 c13 c23 : ℝ) {k j i : ℤ} (ha : Act g k j i) :
    let P := quad q w a b1 b2 b3 c11 c22 c33 c12 c13 c23
    let x := i * q.dx1
    let y := if dims w 1 then j * q.dx2 else 0
    let z := if dims w 2 then k * q.dx3 else 0
    let rho := q.rho0 + (2 * c11 + (if dims w 1 then 2 * c22 else 0) + (if dims w 2 then 2 * c33 else 0)) / q.G4
    (source w q g F P U k j i).M1 = (U k j i).M1 - q.dt * (rho * (b1 + 2 * c11 * x + c12 * y + c13 * z)) ∧
    (source w q g F P U k j i).M2 = (U k j i).M2 - (if dims w 1 then q.dt * (rho * (b2 + 2 * c22 * y + c12 * x + c23 * z)) else 0) ∧
    (source w q g F P U k j i).M3 = (U k j i).M3 - (if dims w 2 then q.dt * (rho * (b3 + 2 * c33 * z + c13 * x + c23 * y)) else 0) := by
  intro P x y z rho
  obtain ⟨-, e1, e2, e3, -⟩ := source_val w g q F P U ha
  have h1 := hq.dx1.ne'
  have h2 := hq.dx2.ne'
  have h3 := hq.dx3.ne'
  have hG := hq.G4.ne'
  rw [e1, e2, e3]
  cases w
  · have f11 : ∀ i : ℤ, g11 q P k j i = -(b1 + 2 * c11 * ((i - 1 / 2) * q.dx1)) := by
      intro i; simp only [g11, P, quad, dim11, dim12, reduceIte, Bool.false_eq_true]; push_cast; field_simp; ring
    simp only [ddif, dsum, T1, f11, dim11, dim12, reduceIte, Bool.false_eq_true, rho, x, y, z]
    simp only [P, quad, dim11, dim12, reduceIte, Bool.false_eq_true]
    push_cast
    refine ⟨?_, ?_, ?_⟩
    · field_simp; ring
    · ring
    · ring
  · have f11 : ∀ j i : ℤ, g11 q P k j i = -(b1 + 2 * c11 * ((i - 1 / 2) * q.dx1) + c12 * (j * q.dx2)) := by
      intro j i; simp only [g11, P, quad, dim21, dim22, reduceIte, Bool.false_eq_true]; push_cast; field_simp; ring
    have f21 : ∀ j i : ℤ, g21 q P k j i = -(b2 + 2 * c22 * (j * q.dx2) + c12 * ((i - 1 / 2) * q.dx1)) := by
      intro j i; simp only [g21, P, quad, dim21, dim22, reduceIte, Bool.false_eq_true]; push_cast; field_simp; ring
    have f12 : ∀ j i : ℤ, g12 q P k j i = -(b1 + 2 * c11 * (i * q.dx1) + c12 * ((j - 1 / 2) * q.dx2)) := by
      intro j i; simp only [g12, P, quad, dim21, dim22, reduceIte, Bool.false_eq_true]; push_cast; field_simp; ring
    have f22 : ∀ j i : ℤ, g22 q P k j i = -(b2 + 2 * c22 * ((j - 1 / 2) * q.dx2) + c12 * (i * q.dx1)) := by
      intro j i; simp only [g22, P, quad, dim21, dim22, reduceIte, Bool.false_eq_true]; push_cast; field_simp; ring
    simp only [ddif, dsum, T1, T2, f11, f21, f12, f22, dim21, dim22, reduceIte, Bool.false_eq_true, rho, x, y, z]
    simp only [P, quad, dim21, dim22, reduceIte, Bool.false_eq_true]
    push_cast
    refine ⟨?_, ?_, ?_⟩
    · field_simp; ring
    · field_simp; ring
    · ring
  · have f11 : ∀ k j i : ℤ, g11 q P k j i = -(b1 + 2 * c11 * ((i - 1 / 2) * q.dx1) + c12 * (j * q.dx2) + c13 * (k * q.dx3)) := by
      intro k j i; simp only [g11, P, quad, dim31, dim32, reduceIte]; push_cast; field_simp; ring
    have f21 : ∀ k j i : ℤ, g21 q P k j i = -(b2 + 2 * c22 * (j * q.dx2) + c12 * ((i - 1 / 2) * q.dx1) + c23 * (k * q.dx3)) := by
      intro k j i; simp only [g21, P, quad, dim31, dim32, reduceIte]; push_cast; field_simp; ring
    have f31 : ∀ k j i : ℤ, g31 q P k j i = -(b3 + 2 * c33 * (k * q.dx3) + c13 * ((i - 1 / 2) * q.dx1) + c23 * (j * q.dx2)) := by
      intro k j i; simp only [g31, P, quad, dim31, dim32, reduceIte]; push_cast; field_simp; ring
    have f12 : ∀ k j i : ℤ, g12 q P k j i = -(b1 + 2 * c11 * (i * q.dx1) + c12 * ((j - 1 / 2) * q.dx2) + c13 * (k * q.dx3)) := by
      intro k j i; simp only [g12, P, quad, dim31, dim32, reduceIte]; push_cast; field_simp; ring
    have f22 : ∀ k j i : ℤ, g22 q P k j i = -(b2 + 2 * c22 * ((j - 1 / 2) * q.dx2) + c12 * (i * q.dx1) + c23 * (k * q.dx3)) := by
      intro k j i; simp only [g22, P, quad, dim31, dim32, reduceIte]; push_cast; field_simp; ring
    have f32 : ∀ k j i : ℤ, g32 q P k j i = -(b3 + 2 * c33 * (k * q.dx3) + c13 * (i * q.dx1) + c23 * ((j - 1 / 2) * q.dx2)) := by
      intro k j i; simp only [g32, P, quad, dim31, dim32, reduceIte]; push_cast; field_simp; ring
    have f13 : ∀ k j i : ℤ, g13 q P k j i = -(b1 + 2 * c11 * (i * q.dx1) + c12 * (j * q.dx2) + c13 * ((k - 1 / 2) * q.dx3)) := by
      intro k j i; simp only [g13, P, quad, dim31, dim32, reduceIte]; push_cast; field_simp; ring
    have f23 : ∀ k j i : ℤ, g23 q P k j i = -(b2 + 2 * c22 * (j * q.dx2) + c12 * (i * q.dx1) + c23 * ((k - 1 / 2) * q.dx3)) := by
      intro k j i; simp only [g23, P, quad, dim31, dim32, reduceIte]; push_cast; field_simp; ring
    have f33 : ∀ k j i : ℤ, g33 q P k j i = -(b3 + 2 * c33 * ((k - 1 / 2) * q.dx3) + c13 * (i * q.dx1) + c23 * (j * q.dx2)) := by
      intro k j i; simp only [g33, P, quad, dim31, dim32, reduceIte]; push_cast; field_simp; ring
    simp only [ddif, dsum, T1, T2, T3, f11, f21, f31, f12, f22, f32, f13, f23, f33, dim31, dim32, reduceIte, rho, x, y, z]
    simp only [P, quad, dim31, dim32, reduceIte]
    push_cast
    refine ⟨?_, ?_, ?_⟩
    · field_simp; ring
    · field_simp; ring
    · field_simp; ring

/-- In one dimension, with the potential of the gas, the momentum added to every zone is exactly the time step times its density times minus the
centred difference of the potential. -/
theorem force_1d (hq : q.Ok) (F : Flx ns) (U : Arr (Cons ℝ ns)) {P : Arr ℝ} (hP : Solved .d1 q g U P) (hm : q.rho0 = meanRho g U)
    {k j i : ℤ} (ha : Act g k j i) :
    (source .d1 q g F P U k j i).M1 = (U k j i).M1 - q.dt * ((U k j i).d * ((P k j (i+1) - P k j (i-1)) / (2 * q.dx1))) := by
  have e := hP.eq k j i ha
  rw [(source_val .d1 g q F P U ha).2.1]
  have h1 := hq.dx1.ne'
  have hG := hq.G4.ne'
  unfold lapl dsum at e
  simp only [dim11, dim12, Bool.false_eq_true, if_false, add_zero] at e
  rw [← hm] at e
  have ed : (U k j i).d = q.rho0 + (P k j (i-1) - 2 * P k j i + P k j (i+1)) / (q.dx1 * q.dx1) / q.G4 := by rw [e]; field_simp; ring
  rw [ed]
  simp only [ddif, dsum, T1, g11, dim11, dim12, Bool.false_eq_true, if_false, add_zero, add_sub_cancel_right]
  field_simp
  ring

/-! ## C77: energy -/

/-- Total energy of gas and gravity. -/
noncomputable def energy (g : Rng) (S : GSt ns) : ℝ := tot g (fun k j i => (S.U k j i).E + 1 / 2 * (S.U k j i).d * S.Phi k j i)

theorem Solved.congr {q' : Par} {U U' : Arr (Cons ℝ ns)} {P : Arr ℝ} (h : Solved w q g U P) (hd : ∀ k j i, Act g k j i → (U k j i).d = (U' k j i).d)
    (e : q.dx1 = q'.dx1 ∧ q.dx2 = q'.dx2 ∧ q.dx3 = q'.dx3 ∧ q.G4 = q'.G4) : Solved w q' g U' P := by
  have hm : meanRho g U = meanRho g U' := by
    unfold meanRho; rw [tot_congr (fun k j i a b c d e f => hd k j i ⟨a, b, c, d, e, f⟩)]
  refine ⟨h.per, h.zero, fun k j i ha => ?_⟩
  rw [← hd k j i ha, ← hm, ← e.2.2.2, ← h.eq k j i ha]
  unfold lapl; rw [e.1, e.2.1, e.2.2.1]

/-- One cycle. -/
theorem energy_cycle (hq : q.Ok) (h : Ok w g) {F : Flx ns} (hF : Matched w g F) (S : GSt ns) (hS : Solved w q g S.U S.Phi)
    (hm : w = .d1 → q.rho0 = meanRho g S.U) :
    Solved w q g (cycleG w q g F S).U (cycleG w q g F S).Phi ∧
    energy g (cycleG w q g F S) = energy g S
      - tot g (slip w q (fun k j i => (F.F2 k j i).d) (cycleG w q g F S).Phi S.Phi) := by
  obtain ⟨o1, o2, o3⟩ := h.ij
  have hng := h.ng
  set A := advanceG w q g F S with hA
  set B := solveG w q g A with hB
  have dA : ∀ k j i, Act g k j i → ((cycleG w q g F S).U k j i).d = (A.U k j i).d := fun k j i ha => (correct_val w g q _ ha).1
  have massA : tot g (fun k j i => (A.U k j i).d) = tot g (fun k j i => (S.U k j i).d) := by
    rw [← mass_cycle (q := q) h hF S]; exact (tot_congr fun k j i a b c d e f => dA k j i ⟨a, b, c, d, e, f⟩).symm
  have meanA : meanRho g A.U = meanRho g S.U := by unfold meanRho; rw [massA]
  have sB : Solved w q g A.U B.Phi := solveG_solved hq h A (fun e => by rw [meanA]; exact hm e)
  have sC : Solved w q g (cycleG w q g F S).U (cycleG w q g F S).Phi :=
    sB.congr (fun k j i ha => (dA k j i ha).symm) ⟨rfl, rfl, rfl, rfl⟩
  refine ⟨sC, ?_⟩
  have ho : PerGhost w g B.old := copy_per h A hS.per
  have w2 : 0 ≤ wid (dims w 2) g.ng := by unfold wid; split_ifs <;> omega
  have w1 : 0 ≤ wid (dims w 1) g.ng := by unfold wid; split_ifs <;> omega
  have w2' : dims w 2 = true → 1 ≤ wid (dims w 2) g.ng := by intro e; simp [wid, e]; omega
  have w1' : dims w 1 = true → 1 ≤ wid (dims w 1) g.ng := by intro e; simp [wid, e]; omega
  have oP : ∀ k j i, g.ks - wid (dims w 2) 1 ≤ k → k ≤ g.ke + wid (dims w 2) 1 → g.js - wid (dims w 1) 1 ≤ j → j ≤ g.je + wid (dims w 1) 1 →
      g.is - 1 ≤ i → i ≤ g.ie + 1 → B.old k j i = S.Phi k j i := by
    intro k j i a b c d e f
    have m2 : wid (dims w 2) 1 ≤ wid (dims w 2) g.ng := by unfold wid; split_ifs <;> omega
    have m1 : wid (dims w 1) 1 ≤ wid (dims w 1) g.ng := by unfold wid; split_ifs <;> omega
    exact copy_old h A (by omega) (by omega) (by omega)
  -- the saved mass fluxes
  have mE := hF.ends (fun u => u.d) (fun u => u.d) (fun u => u.d)
  have wkB : ∀ φ k j i, Act g k j i → wk w q B.m1 B.m2 B.m3 φ k j i
      = wk w q (fun k j i => (F.F1 k j i).d) (fun k j i => (F.F2 k j i).d) (fun k j i => (F.F3 k j i).d) φ k j i := by
    intro φ k j i ha
    obtain ⟨⟨a1, a2⟩, ⟨b1, b2⟩, c1, c2⟩ := ha.out
    have v2 : 0 ≤ wid (dims w 2) 1 := by unfold wid; split_ifs <;> omega
    have v1 : 0 ≤ wid (dims w 1) 1 := by unfold wid; split_ifs <;> omega
    have m1 : ∀ i', g.is ≤ i' → i' ≤ g.ie + 1 → B.m1 k j i' = (F.F1 k j i').d := fun i' x y => by
      have e : B.m1 = loop3 g.ks (g.ke + wid (dims w 2) 1) g.js (g.je + wid (dims w 1) 1) g.is (g.ie + 1) (fun k j i => (F.F1 k j i).d) S.m1 := rfl
      rw [e]
      exact loop3_in _ _ a1 (by omega) b1 (by omega) x y
    have m2 : dims w 1 = true → ∀ j', g.js ≤ j' → j' ≤ g.je + 1 → B.m2 k j' i = (F.F2 k j' i).d := by
      intro e j' x y
      show (if dims w 1 then loop3 _ _ _ _ _ _ _ _ else _) k j' i = _
      rw [if_pos e]
      exact loop3_in _ _ a1 (by omega) x (by simp [wid, e]; omega) c1 (by omega)
    have m3 : dims w 2 = true → ∀ k', g.ks ≤ k' → k' ≤ g.ke + 1 → B.m3 k' j i = (F.F3 k' j i).d := by
      intro e k' x y
      show (if dims w 2 then loop3 _ _ _ _ _ _ _ _ else _) k' j i = _
      rw [if_pos e]
      exact loop3_in _ _ x (by simp [wid, e]; omega) b1 (by omega) c1 (by omega)
    unfold wk dsum
    rw [m1 i (by omega) (by omega), m1 (i+1) (by omega) (by omega)]
    congr 1
    · congr 1
      cases e : dims w 1
      · rfl
      · simp only [if_true]
        rw [m2 e j (by omega) (by omega), m2 e (j+1) (by omega) (by omega)]
    · cases e : dims w 2
      · rfl
      · simp only [if_true]
        rw [m3 e k (by omega) (by omega), m3 e (k+1) (by omega) (by omega)]
  set m1 : Arr ℝ := fun k j i => (F.F1 k j i).d
  set m2 : Arr ℝ := fun k j i => (F.F2 k j i).d
  set m3 : Arr ℝ := fun k j i => (F.F3 k j i).d
  have slipB : ∀ k j i, Act g k j i → slip w q B.m2 B.Phi B.old k j i = slip w q m2 (cycleG w q g F S).Phi S.Phi k j i := by
    intro k j i ha
    obtain ⟨⟨a1, a2⟩, ⟨b1, b2⟩, c1, c2⟩ := ha.out
    unfold slip
    by_cases e : w = .d2
    · rw [if_pos e, if_pos e]
      subst e
      have v2 : wid (dims .d2 2) 1 = 0 := rfl
      have v1 : wid (dims .d2 1) 1 = 1 := rfl
      have mm : ∀ j', g.js ≤ j' → j' ≤ g.je + 1 → B.m2 k j' i = m2 k j' i := by
        intro j' x y
        have e : B.m2 = loop3 g.ks (g.ke + wid (dims .d2 2) 1) g.js (g.je + wid (dims .d2 1) 1) g.is (g.ie + 1) (fun k j i => (F.F2 k j i).d) S.m2 := rfl
        rw [e]
        exact loop3_in _ _ a1 (by omega) x (by omega) c1 (by omega)
      rw [mm j (by omega) (by omega), mm (j+1) (by omega) (by omega), oP k j i (by omega) (by omega) (by omega) (by omega) (by omega) (by omega)]
      rfl
    · rw [if_neg e, if_neg e]
  have wkO : ∀ k j i, Act g k j i → wk w q m1 m2 m3 B.old k j i = wk w q m1 m2 m3 S.Phi k j i := by
    intro k j i ha
    obtain ⟨⟨a1, a2⟩, ⟨b1, b2⟩, c1, c2⟩ := ha.out
    have v2 : 0 ≤ wid (dims w 2) 1 := by unfold wid; split_ifs <;> omega
    have v1 : 0 ≤ wid (dims w 1) 1 := by unfold wid; split_ifs <;> omega
    unfold wk dsum
    rw [oP k j i (by omega) (by omega) (by omega) (by omega) (by omega) (by omega),
      oP k j (i-1) (by omega) (by omega) (by omega) (by omega) (by omega) (by omega),
      oP k j (i+1) (by omega) (by omega) (by omega) (by omega) (by omega) (by omega)]
    congr 1
    · congr 1
      cases e : dims w 1
      · rfl
      · have : wid (dims w 1) 1 = 1 := by simp [wid, e]
        simp only [if_true]
        rw [oP k (j-1) i (by omega) (by omega) (by omega) (by omega) (by omega) (by omega),
          oP k (j+1) i (by omega) (by omega) (by omega) (by omega) (by omega) (by omega)]
    · cases e : dims w 2
      · rfl
      · have : wid (dims w 2) 1 = 1 := by simp [wid, e]
        simp only [if_true]
        rw [oP (k-1) j i (by omega) (by omega) (by omega) (by omega) (by omega) (by omega),
          oP (k+1) j i (by omega) (by omega) (by omega) (by omega) (by omega) (by omega)]
  -- the energy of the gas
  have zE : ∀ k j i, Act g k j i → ((cycleG w q g F S).U k j i).E = (S.U k j i).E - wk w q m1 m2 m3 S.Phi k j i
      - ddif w (q.dt / q.dx1) (q.dt / q.dx2) (q.dt / q.dx3) (fun k j i => (F.F1 k j i).E) (fun k j i => (F.F2 k j i).E) (fun k j i => (F.F3 k j i).E) k j i
      - 0.5 * wk w q m1 m2 m3 B.Phi k j i + 0.5 * wk w q m1 m2 m3 S.Phi k j i - slip w q m2 (cycleG w q g F S).Phi S.Phi k j i := by
    intro k j i ha
    have := (correct_val w g q B ha).2.2.2.2
    unfold cycleG
    rw [← hA, ← hB, this, wkB _ _ _ _ ha, wkB _ _ _ _ ha, wkO _ _ _ ha, slipB _ _ _ ha,
      show (B.U k j i).E = (fluxes w q g F (source w q g F S.Phi S.U) k j i).E from rfl, (fluxes_val w g q F _ ha).2.2.2.2,
      (source_val w g q F _ _ ha).2.2.2.2]
    rfl
  have tE : tot g (fun k j i => ((cycleG w q g F S).U k j i).E) = tot g (fun k j i => (S.U k j i).E) - tot g (wk w q m1 m2 m3 S.Phi)
      - 0.5 * tot g (wk w q m1 m2 m3 B.Phi) + 0.5 * tot g (wk w q m1 m2 m3 S.Phi) - tot g (slip w q m2 (cycleG w q g F S).Phi S.Phi) := by
    rw [tot_congr (fun k j i a b c d e f => zE k j i ⟨a, b, c, d, e, f⟩), tot_sub, tot_add, tot_sub, tot_sub, tot_sub, tot_mul, tot_mul,
      tot_ddif h _ _ _ (hF.ends (fun u => u.E) (fun u => u.E) (fun u => u.E))]
    ring
  rw [tot_wk h hS.per mE, tot_wk h sB.per mE] at tE
  -- the change of the density
  have dd : ∀ k j i, Act g k j i → ddif w (q.dt / q.dx1) (q.dt / q.dx2) (q.dt / q.dx3) m1 m2 m3 k j i = (S.U k j i).d - ((cycleG w q g F S).U k j i).d :=
    fun k j i ha => by rw [cycle_d ha]; ring
  -- both potentials belong to their densities
  have adj := tot_adj (q := q) h hS.per sC.per
  have l1 : tot g (fun k j i => lapl w q S.Phi k j i * (cycleG w q g F S).Phi k j i)
      = q.G4 * tot g (fun k j i => (S.U k j i).d * (cycleG w q g F S).Phi k j i) := by
    rw [tot_congr (f' := fun k j i => q.G4 * ((S.U k j i).d * (cycleG w q g F S).Phi k j i) - q.G4 * meanRho g S.U * (cycleG w q g F S).Phi k j i)
      (fun k j i a b c d e f => by rw [hS.eq k j i ⟨a, b, c, d, e, f⟩]; ring), tot_sub, tot_mul, tot_mul, sC.zero]
    ring
  have l2 : tot g (fun k j i => S.Phi k j i * lapl w q (cycleG w q g F S).Phi k j i)
      = q.G4 * tot g (fun k j i => S.Phi k j i * ((cycleG w q g F S).U k j i).d) := by
    rw [tot_congr (f' := fun k j i => q.G4 * (S.Phi k j i * ((cycleG w q g F S).U k j i).d) - q.G4 * meanRho g (cycleG w q g F S).U * S.Phi k j i)
      (fun k j i a b c d e f => by rw [sC.eq k j i ⟨a, b, c, d, e, f⟩]; ring), tot_sub, tot_mul, tot_mul, hS.zero]
    ring
  rw [l1, l2] at adj
  have adj := mul_left_cancel₀ hq.G4.ne' adj
  have bP : B.Phi = (cycleG w q g F S).Phi := rfl
  have w0 : tot g (fun k j i => S.Phi k j i * ddif w (q.dt / q.dx1) (q.dt / q.dx2) (q.dt / q.dx3) m1 m2 m3 k j i)
      = tot g (fun k j i => (S.U k j i).d * S.Phi k j i) - tot g (fun k j i => S.Phi k j i * ((cycleG w q g F S).U k j i).d) := by
    rw [← tot_sub]; exact tot_congr fun k j i a b c d e f => by rw [dd k j i ⟨a, b, c, d, e, f⟩]; ring
  have w1 : tot g (fun k j i => B.Phi k j i * ddif w (q.dt / q.dx1) (q.dt / q.dx2) (q.dt / q.dx3) m1 m2 m3 k j i)
      = tot g (fun k j i => (S.U k j i).d * (cycleG w q g F S).Phi k j i)
        - tot g (fun k j i => ((cycleG w q g F S).U k j i).d * (cycleG w q g F S).Phi k j i) := by
    rw [← tot_sub, bP]; exact tot_congr fun k j i a b c d e f => by rw [dd k j i ⟨a, b, c, d, e, f⟩]; ring
  rw [w0, w1] at tE
  have half : ∀ T : GSt ns, energy g T = tot g (fun k j i => (T.U k j i).E) + 1 / 2 * tot g (fun k j i => (T.U k j i).d * T.Phi k j i) := by
    intro T; unfold energy; rw [tot_add, ← tot_mul]; congr 1; exact tot_congr fun k j i _ _ _ _ _ _ => by ring
  rw [half, half, tE]
  norm_num
  linarith

/-- The parameters of a run: only the time step changes. -/
def SameGrid (q : ℕ → Par) : Prop := ∀ n, (q n).dx1 = (q 0).dx1 ∧ (q n).dx2 = (q 0).dx2 ∧ (q n).dx3 = (q 0).dx3 ∧ (q n).G4 = (q 0).G4 ∧ (q n).rho0 = (q 0).rho0

theorem run_solved (h : Ok w g) (q : ℕ → Par) (hq : (q 0).Ok) (hs : SameGrid q) (F : ℕ → Flx ns) (hF : ∀ n, Matched w g (F n)) (S : GSt ns)
    (hm : w = .d1 → (q 0).rho0 = meanRho g S.U) (n : ℕ) : Solved w (q n) g (runG w q g F S n).U (runG w q g F S n).Phi := by
  have hqn : ∀ n, (q n).Ok := fun n => by
    obtain ⟨a, b, c, d, e⟩ := hs n
    exact ⟨a ▸ hq.dx1, b ▸ hq.dx2, c ▸ hq.dx3, d ▸ hq.G4⟩
  induction n with
  | zero => exact solveG_solved hq h S hm
  | succ n ih =>
    have mean : meanRho g (runG w q g F S n).U = meanRho g S.U := by
      unfold meanRho; rw [(momentum_conserved_run h q F hF S n).1]
    have := (energy_cycle (hqn n) h (hF n) _ ih (fun e => by rw [mean, (hs n).2.2.2.2]; exact hm e)).1
    obtain ⟨a, b, c, d, e⟩ := hs n
    obtain ⟨a', b', c', d', e'⟩ := hs (n + 1)
    exact this.congr (fun _ _ _ _ => rfl) ⟨a.trans a'.symm, b.trans b'.symm, c.trans c'.symm, d.trans d'.symm⟩

/-- In one and three dimensions the sum of the energy of the gas and half the density times the potential is the same after every cycle of a run, for
all time steps and all fluxes that match at opposite ends of the Grid (in one dimension with `grav_mean_rho` the mean density). -/
theorem energy_conserved_run_partial (h : Ok w g) (hw : w ≠ .d2) (q : ℕ → Par) (hq : (q 0).Ok) (hs : SameGrid q) (F : ℕ → Flx ns)
    (hF : ∀ n, Matched w g (F n)) (S : GSt ns) (hm : w = .d1 → (q 0).rho0 = meanRho g S.U) (n : ℕ) :
    energy g (runG w q g F S n) = energy g (runG w q g F S 0) := by
  have hqn : ∀ n, (q n).Ok := fun n => by
    obtain ⟨a, b, c, d, e⟩ := hs n
    exact ⟨a ▸ hq.dx1, b ▸ hq.dx2, c ▸ hq.dx3, d ▸ hq.G4⟩
  induction n with
  | zero => rfl
  | succ n ih =>
    have mean : meanRho g (runG w q g F S n).U = meanRho g S.U := by
      unfold meanRho; rw [(momentum_conserved_run h q F hF S n).1]
    have e := (energy_cycle (hqn n) h (hF n) _ (run_solved h q hq hs F hF S hm n) (fun e => by rw [mean, (hs n).2.2.2.2]; exact hm e)).2
    have z : tot g (slip w (q n) (fun k j i => ((F n).F2 k j i).d) (cycleG w (q n) g (F n) (runG w q g F S n)).Phi (runG w q g F S n).Phi) = 0 := by
      rw [tot_congr (f' := fun _ _ _ => 0) (fun k j i _ _ _ _ _ _ => by unfold slip; exact if_neg hw)]
      simp [tot]
    rw [z, sub_zero] at e
    exact e.trans ih

/-- In two dimensions every cycle changes it by half the sum of the change of the potential times that part of the change of the density that the
x2-fluxes make. -/
theorem energy_2d (hq : q.Ok) (h : Ok .d2 g) {F : Flx ns} (hF : Matched .d2 g F) (S : GSt ns) (hS : Solved .d2 q g S.U S.Phi) :
    energy g (cycleG .d2 q g F S) - energy g S = 1 / 2 * tot g (fun k j i => ((cycleG .d2 q g F S).Phi k j i - S.Phi k j i)
      * -(q.dt / q.dx2 * ((F.F2 k (j+1) i).d - (F.F2 k j i).d))) := by
  have e := (energy_cycle hq h hF S hS (fun e => by cases e)).2
  rw [e, ← tot_mul]
  rw [show tot g (fun k j i => 1 / 2 * (((cycleG .d2 q g F S).Phi k j i - S.Phi k j i) * -(q.dt / q.dx2 * ((F.F2 k (j+1) i).d - (F.F2 k j i).d))))
    = tot g (fun k j i => (-1) * slip .d2 q (fun k j i => (F.F2 k j i).d) (cycleG .d2 q g F S).Phi S.Phi k j i) from
    tot_congr fun k j i _ _ _ _ _ _ => by unfold slip; simp only [if_true]; norm_num; ring, tot_mul]
  ring

/-- So it is lost in every cycle in which mass moves along x2 only and the density of some zone changes. -/
theorem energy_2d_false (hq : q.Ok) (h : Ok .d2 g) {F : Flx ns} (hF : Matched .d2 g F) (S : GSt ns) (hS : Solved .d2 q g S.U S.Phi)
    (h1 : ∀ k j i, (F.F1 k j i).d = 0) {k j i : ℤ} (ha : Act g k j i) (hd : ((cycleG .d2 q g F S).U k j i).d ≠ (S.U k j i).d) :
    energy g (cycleG .d2 q g F S) < energy g S := by
  have e := energy_2d hq h hF S hS
  have sC := (energy_cycle hq h hF S hS (fun e => by cases e)).1
  set C := cycleG .d2 q g F S with hC
  have mean : meanRho g C.U = meanRho g S.U := by unfold meanRho; rw [mass_cycle h hF S]
  have per := sC.per.sub hS.per
  have lap : ∀ k j i, Act g k j i → lapl .d2 q (fun k j i => C.Phi k j i - S.Phi k j i) k j i = q.G4 * ((C.U k j i).d - (S.U k j i).d) := by
    intro k j i ha
    rw [lapl_sub, sC.eq k j i ha, hS.eq k j i ha, mean]; ring
  have hd' : ∀ k j i, Act g k j i → -(q.dt / q.dx2 * ((F.F2 k (j+1) i).d - (F.F2 k j i).d)) = (C.U k j i).d - (S.U k j i).d := by
    intro k j i ha
    rw [hC, cycle_d ha]
    simp only [ddif, dsum, dim21, dim22, if_true, Bool.false_eq_true, if_false, h1]
    ring
  have hsum : tot g (fun k j i => (C.Phi k j i - S.Phi k j i) * lapl .d2 q (fun k j i => C.Phi k j i - S.Phi k j i) k j i)
      = q.G4 * tot g (fun k j i => (C.Phi k j i - S.Phi k j i) * -(q.dt / q.dx2 * ((F.F2 k (j+1) i).d - (F.F2 k j i).d))) := by
    rw [← tot_mul]
    exact tot_congr fun k j i a b c d e f => by rw [lap k j i ⟨a, b, c, d, e, f⟩, hd' k j i ⟨a, b, c, d, e, f⟩]; ring
  have le : tot g (fun k j i => (C.Phi k j i - S.Phi k j i) * lapl .d2 q (fun k j i => C.Phi k j i - S.Phi k j i) k j i) ≤ 0 := by
    rw [tot_grad h per]
    have p1 := hq.dx1
    have p2 := hq.dx2
    have p3 := hq.dx3
    exact neg_nonpos.mpr (tot_nonneg fun k j i => dsum_nonneg (by positivity) (by positivity) (by positivity))
  have ne : tot g (fun k j i => (C.Phi k j i - S.Phi k j i) * lapl .d2 q (fun k j i => C.Phi k j i - S.Phi k j i) k j i) ≠ 0 := by
    intro z
    have ng := no_grad hq h per z
    have hng := h.ng
    have hN := h.hi
    obtain ⟨o1, o2, o3⟩ := h.ij
    have ck := h.ck dim22
    have hj := h.hj dim21
    have up : ∀ k j i, Act g k j i → C.Phi k j (i+1) - S.Phi k j (i+1) = C.Phi k j i - S.Phi k j i := by
      intro k j i ha
      by_cases hl : i + 1 ≤ g.ie
      · have := (ng k j (i+1) ⟨ha.k1, ha.k2, ha.j1, ha.j2, by have := ha.i1; omega, hl⟩).1
        simp only [add_sub_cancel_right] at this
        exact this
      · have hi : i = g.ie := by have := ha.i2; omega
        subst hi
        have t := (ng k j g.is ⟨ha.k1, ha.k2, ha.j1, ha.j2, le_rfl, o1⟩).1
        have p1 := per.i k j g.is (by have := ha.k1; simp [wid]; omega) (by have := ha.k2; simp [wid]; omega) (by have := ha.j1; simp [wid]; omega)
          (by have := ha.j2; simp [wid]; omega) (by omega) (by omega)
        have p2 := per.i k j (g.is - 1) (by have := ha.k1; simp [wid]; omega) (by have := ha.k2; simp [wid]; omega) (by have := ha.j1; simp [wid]; omega)
          (by have := ha.j2; simp [wid]; omega) (by omega) (by omega)
        rw [show g.is + (g.ie - g.is + 1) = g.ie + 1 by ring] at p1
        rw [show g.is - 1 + (g.ie - g.is + 1) = g.ie by ring] at p2
        linarith
    have up2 : ∀ k j i, Act g k j i → C.Phi k (j+1) i - S.Phi k (j+1) i = C.Phi k j i - S.Phi k j i := by
      intro k j i ha
      by_cases hl : j + 1 ≤ g.je
      · have := (ng k (j+1) i ⟨ha.k1, ha.k2, by have := ha.j1; omega, hl, ha.i1, ha.i2⟩).2.1 dim21
        simp only [add_sub_cancel_right] at this
        exact this
      · have hi : j = g.je := by have := ha.j2; omega
        subst hi
        have t := (ng k g.js i ⟨ha.k1, ha.k2, le_rfl, o2, ha.i1, ha.i2⟩).2.1 dim21
        have p1 := per.j dim21 k g.js i (by have := ha.k1; simp [wid]; omega) (by have := ha.k2; simp [wid]; omega) (by have := ha.i1; omega)
          (by have := ha.i2; omega) (by omega) (by omega)
        have p2 := per.j dim21 k (g.js - 1) i (by have := ha.k1; simp [wid]; omega) (by have := ha.k2; simp [wid]; omega) (by have := ha.i1; omega)
          (by have := ha.i2; omega) (by omega) (by omega)
        rw [show g.js + (g.je - g.js + 1) = g.je + 1 by ring] at p1
        rw [show g.js - 1 + (g.je - g.js + 1) = g.je by ring] at p2
        linarith
    have l := lap k j i ha
    have a1 := (ng k j i ha).1
    have a2 := (ng k j i ha).2.1 dim21
    have a3 := up k j i ha
    have a4 := up2 k j i ha
    unfold lapl dsum at l
    simp only [dim21, dim22, if_true, Bool.false_eq_true, if_false] at l
    rw [a3, a4, ← a1, ← a2] at l
    have : q.G4 * ((C.U k j i).d - (S.U k j i).d) = 0 := by rw [← l]; ring
    rcases mul_eq_zero.mp this with z | z
    · exact hq.G4.ne' z
    · exact hd (sub_eq_zero.mp z)
  have lt := lt_of_le_of_ne le ne
  rw [hsum] at lt
  have hG := hq.G4
  have : tot g (fun k j i => (C.Phi k j i - S.Phi k j i) * -(q.dt / q.dx2 * ((F.F2 k (j+1) i).d - (F.F2 k j i).d))) < 0 := by
    by_contra hc
    push Not at hc
    have := mul_nonneg hG.le hc
    linarith
  linarith

end Athena.Grav
