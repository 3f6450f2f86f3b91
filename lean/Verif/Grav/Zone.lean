import Verif.Grav.Cons
import Verif.Micro.Conduct

/-!
# What one cycle does to a zone, and to sums over all zones
-/

namespace Athena.Grav
open Finset Athena.Vl3 Athena.Gen
open Athena.Micro (dim11 dim12 dim21 dim22 dim31 dim32)

/-- The fluxes through opposite ends of the Grid are the same, as those of the integrators are on a periodic Grid. -/
structure Matched {ns : ℕ} (w : Which) (g : Rng) (F : Flx ns) : Prop where
  f1 : ∀ k j, g.ks ≤ k → k ≤ g.ke → g.js ≤ j → j ≤ g.je → F.F1 k j (g.ie + 1) = F.F1 k j g.is
  f2 : dims w 1 = true → ∀ k i, g.ks ≤ k → k ≤ g.ke → g.is ≤ i → i ≤ g.ie → F.F2 k (g.je + 1) i = F.F2 k g.js i
  f3 : dims w 2 = true → ∀ j i, g.js ≤ j → j ≤ g.je → g.is ≤ i → i ≤ g.ie → F.F3 (g.ke + 1) j i = F.F3 g.ks j i

/-- An active zone. -/
structure Act (g : Rng) (k j i : ℤ) : Prop where
  k1 : g.ks ≤ k
  k2 : k ≤ g.ke
  j1 : g.js ≤ j
  j2 : j ≤ g.je
  i1 : g.is ≤ i
  i2 : i ≤ g.ie

variable {ns : ℕ} {w : Which} {g : Rng} {q : Par}

theorem Matched.ends {F : Flx ns} (h : Matched w g F) (f1 f2 f3 : Cons1 ℝ ns → ℝ) :
    Ends w g (fun k j i => f1 (F.F1 k j i)) (fun k j i => f2 (F.F2 k j i)) (fun k j i => f3 (F.F3 k j i)) :=
  ⟨fun k j a b c d => by rw [h.f1 k j a b c d], fun e k i a b c d => by rw [h.f2 e k i a b c d], fun e j i a b c d => by rw [h.f3 e j i a b c d]⟩

section Zone
variable (w q g)

theorem fluxes_val (F : Flx ns) (U : Arr (Cons ℝ ns)) {k j i : ℤ} (h : Act g k j i) :
    (fluxes w q g F U k j i).d = (U k j i).d - ddif w (q.dt / q.dx1) (q.dt / q.dx2) (q.dt / q.dx3) (fun k j i => (F.F1 k j i).d)
      (fun k j i => (F.F2 k j i).d) (fun k j i => (F.F3 k j i).d) k j i ∧
    (fluxes w q g F U k j i).M1 = (U k j i).M1 - ddif w (q.dt / q.dx1) (q.dt / q.dx2) (q.dt / q.dx3) (fun k j i => (F.F1 k j i).Mx)
      (fun k j i => (F.F2 k j i).Mz) (fun k j i => (F.F3 k j i).My) k j i ∧
    (fluxes w q g F U k j i).M2 = (U k j i).M2 - ddif w (q.dt / q.dx1) (q.dt / q.dx2) (q.dt / q.dx3) (fun k j i => (F.F1 k j i).My)
      (fun k j i => (F.F2 k j i).Mx) (fun k j i => (F.F3 k j i).Mz) k j i ∧
    (fluxes w q g F U k j i).M3 = (U k j i).M3 - ddif w (q.dt / q.dx1) (q.dt / q.dx2) (q.dt / q.dx3) (fun k j i => (F.F1 k j i).Mz)
      (fun k j i => (F.F2 k j i).My) (fun k j i => (F.F3 k j i).Mx) k j i ∧
    (fluxes w q g F U k j i).E = (U k j i).E - ddif w (q.dt / q.dx1) (q.dt / q.dx2) (q.dt / q.dx3) (fun k j i => (F.F1 k j i).E)
      (fun k j i => (F.F2 k j i).E) (fun k j i => (F.F3 k j i).E) k j i := by
  obtain ⟨a, b, c, d, e, f⟩ := h
  unfold fluxes ddif dsum
  cases w
  all_goals
    simp only [dim11, dim12, dim21, dim22, dim31, dim32, reduceIte, Bool.false_eq_true, reduceCtorEq]
    simp (disch := assumption) only [mod3_in]
    simp only [upd1, upd2, upd3]
    refine ⟨?_, ?_, ?_, ?_, ?_⟩ <;> first | trivial | ring

/-- The work of gravity on a zone: mass fluxes and potential. -/
noncomputable def wk (m1 m2 m3 φ : Arr ℝ) : Arr ℝ := fun k j i => dsum w
  (gwork (q.dt / q.dx1) (m1 k j i) (m1 k j (i+1)) (0.5 * (φ k j (i-1) + φ k j i)) (φ k j i) (0.5 * (φ k j i + φ k j (i+1))))
  (gwork (q.dt / q.dx2) (m2 k j i) (m2 k (j+1) i) (0.5 * (φ k (j-1) i + φ k j i)) (φ k j i) (0.5 * (φ k j i + φ k (j+1) i)))
  (gwork (q.dt / q.dx3) (m3 k j i) (m3 (k+1) j i) (0.5 * (φ (k-1) j i + φ k j i)) (φ k j i) (0.5 * (φ k j i + φ (k+1) j i)))

theorem source_val (F : Flx ns) (P : Arr ℝ) (U : Arr (Cons ℝ ns)) {k j i : ℤ} (h : Act g k j i) :
    (source w q g F P U k j i).d = (U k j i).d ∧
    (source w q g F P U k j i).M1 = (U k j i).M1 - ddif w (q.dt / q.dx1) (q.dt / q.dx2) (q.dt / q.dx3) (fun k j i => (T1 q w P k j i).1)
      (fun k j i => (T2 q w P k j i).1) (fun k j i => (T3 q P k j i).1) k j i ∧
    (source w q g F P U k j i).M2 = (U k j i).M2 - ddif w (q.dt / q.dx1) (q.dt / q.dx2) (q.dt / q.dx3) (fun k j i => (T1 q w P k j i).2.1)
      (fun k j i => (T2 q w P k j i).2.1) (fun k j i => (T3 q P k j i).2.1) k j i ∧
    (source w q g F P U k j i).M3 = (U k j i).M3 - ddif w (q.dt / q.dx1) (q.dt / q.dx2) (q.dt / q.dx3) (fun k j i => (T1 q w P k j i).2.2)
      (fun k j i => (T2 q w P k j i).2.2) (fun k j i => (T3 q P k j i).2.2) k j i ∧
    (source w q g F P U k j i).E = (U k j i).E - wk w q (fun k j i => (F.F1 k j i).d) (fun k j i => (F.F2 k j i).d)
      (fun k j i => (F.F3 k j i).d) P k j i := by
  obtain ⟨a, b, c, d, e, f⟩ := h
  unfold source ddif wk dsum
  cases w
  all_goals
    simp only [dim11, dim12, dim21, dim22, dim31, dim32, reduceIte, Bool.false_eq_true, reduceCtorEq]
    simp (disch := assumption) only [mod3_in]
    simp only [addG]
    refine ⟨?_, ?_, ?_, ?_, ?_⟩ <;> first | trivial | ring

/-- What the wrong line of `selfg_fc` adds to the work in two dimensions. -/
noncomputable def slip (m2 P O : Arr ℝ) : Arr ℝ := fun k j i =>
  if w = .d2 then 0.5 * (q.dt / q.dx2) * ((m2 k (j+1) i - m2 k j i) * (P k j i - O k j i)) else 0

theorem correct_val (S : GSt ns) {k j i : ℤ} (h : Act g k j i) :
    ((correct w q g S).U k j i).d = (S.U k j i).d ∧
    ((correct w q g S).U k j i).M1 = (S.U k j i).M1
      - ddif w (0.5 * (q.dt / q.dx1)) (0.5 * (q.dt / q.dx2)) (0.5 * (q.dt / q.dx3)) (fun k j i => (T1 q w S.Phi k j i).1)
        (fun k j i => (T2 q w S.Phi k j i).1) (fun k j i => (T3 q S.Phi k j i).1) k j i
      + ddif w (0.5 * (q.dt / q.dx1)) (0.5 * (q.dt / q.dx2)) (0.5 * (q.dt / q.dx3)) (fun k j i => (T1 q w S.old k j i).1)
        (fun k j i => (T2 q w S.old k j i).1) (fun k j i => (T3 q S.old k j i).1) k j i ∧
    ((correct w q g S).U k j i).M2 = (S.U k j i).M2
      - ddif w (0.5 * (q.dt / q.dx1)) (0.5 * (q.dt / q.dx2)) (0.5 * (q.dt / q.dx3)) (fun k j i => (T1 q w S.Phi k j i).2.1)
        (fun k j i => (T2 q w S.Phi k j i).2.1) (fun k j i => (T3 q S.Phi k j i).2.1) k j i
      + ddif w (0.5 * (q.dt / q.dx1)) (0.5 * (q.dt / q.dx2)) (0.5 * (q.dt / q.dx3)) (fun k j i => (T1 q w S.old k j i).2.1)
        (fun k j i => (T2 q w S.old k j i).2.1) (fun k j i => (T3 q S.old k j i).2.1) k j i ∧
    ((correct w q g S).U k j i).M3 = (S.U k j i).M3
      - ddif w (0.5 * (q.dt / q.dx1)) (0.5 * (q.dt / q.dx2)) (0.5 * (q.dt / q.dx3)) (fun k j i => (T1 q w S.Phi k j i).2.2)
        (fun k j i => (T2 q w S.Phi k j i).2.2) (fun k j i => (T3 q S.Phi k j i).2.2) k j i
      + ddif w (0.5 * (q.dt / q.dx1)) (0.5 * (q.dt / q.dx2)) (0.5 * (q.dt / q.dx3)) (fun k j i => (T1 q w S.old k j i).2.2)
        (fun k j i => (T2 q w S.old k j i).2.2) (fun k j i => (T3 q S.old k j i).2.2) k j i ∧
    ((correct w q g S).U k j i).E = (S.U k j i).E - 0.5 * wk w q S.m1 S.m2 S.m3 S.Phi k j i + 0.5 * wk w q S.m1 S.m2 S.m3 S.old k j i
      - slip w q S.m2 S.Phi S.old k j i := by
  obtain ⟨a, b, c, d, e, f⟩ := h
  unfold correct ddif wk slip dsum
  cases w
  all_goals
    simp only [dim11, dim12, dim21, dim22, dim31, dim32, reduceIte, Bool.false_eq_true, reduceCtorEq]
    simp (disch := assumption) only [mod3_in]
    simp only [addC, addG, gwork]
    refine ⟨?_, ?_, ?_, ?_, ?_⟩ <;> first | trivial | ring

end Zone

/-! ### Momentum fluxes at opposite ends -/

theorem T_ends (h : Ok w g) {P : Arr ℝ} (hP : PerGhost w g P) (s : ℝ × ℝ × ℝ → ℝ) :
    Ends w g (fun k j i => s (T1 q w P k j i)) (fun k j i => s (T2 q w P k j i)) (fun k j i => s (T3 q P k j i)) := by
  have hng := h.ng
  have hi := h.hi
  have w2 : 0 ≤ wid (dims w 2) g.ng := by unfold wid; split_ifs <;> omega
  have w1 : 0 ≤ wid (dims w 1) g.ng := by unfold wid; split_ifs <;> omega
  have w2' : dims w 2 = true → 1 ≤ wid (dims w 2) g.ng := by intro e; simp [wid, e]; omega
  have w1' : dims w 1 = true → 1 ≤ wid (dims w 1) g.ng := by intro e; simp [wid, e]; omega
  refine ⟨fun k j a b c d => ?_, fun e1 k i a b c d => ?_, fun e2 j i a b c d => ?_⟩
  · have p : ∀ k' j', g.ks - wid (dims w 2) g.ng ≤ k' → k' ≤ g.ke + wid (dims w 2) g.ng → g.js - wid (dims w 1) g.ng ≤ j' →
        j' ≤ g.je + wid (dims w 1) g.ng → P k' j' (g.ie + 1) = P k' j' g.is ∧ P k' j' (g.ie + 1 - 1) = P k' j' (g.is - 1) := by
      intro k' j' a b c d
      refine ⟨?_, ?_⟩
      · rw [← hP.i k' j' g.is a b c d (by omega) (by omega)]; congr 1; ring
      · rw [← hP.i k' j' (g.is - 1) a b c d (by omega) (by omega)]; congr 1; ring
    have p0 := p k j (by omega) (by omega) (by omega) (by omega)
    congr 1
    cases hw : w
    · simp only [T1, g11, p0.1, p0.2]
    · subst hw
      have := w1' rfl
      have p1 := p k (j-1) (by omega) (by omega) (by omega) (by omega)
      have p2 := p k (j+1) (by omega) (by omega) (by omega) (by omega)
      simp only [T1, g11, g21, p0.1, p0.2, p1.1, p1.2, p2.1, p2.2]
    · subst hw
      have := w1' rfl
      have := w2' rfl
      have p1 := p k (j-1) (by omega) (by omega) (by omega) (by omega)
      have p2 := p k (j+1) (by omega) (by omega) (by omega) (by omega)
      have p3 := p (k-1) j (by omega) (by omega) (by omega) (by omega)
      have p4 := p (k+1) j (by omega) (by omega) (by omega) (by omega)
      simp only [T1, g11, g21, g31, p0.1, p0.2, p1.1, p1.2, p2.1, p2.2, p3.1, p3.2, p4.1, p4.2]
  · have hj := h.hj e1
    have p : ∀ k' i', g.ks - wid (dims w 2) g.ng ≤ k' → k' ≤ g.ke + wid (dims w 2) g.ng → g.is - g.ng ≤ i' →
        i' ≤ g.ie + g.ng → P k' (g.je + 1) i' = P k' g.js i' ∧ P k' (g.je + 1 - 1) i' = P k' (g.js - 1) i' := by
      intro k' i' a b c d
      refine ⟨?_, ?_⟩
      · rw [← hP.j e1 k' g.js i' a b c d (by omega) (by omega)]; congr 1; ring
      · rw [← hP.j e1 k' (g.js - 1) i' a b c d (by omega) (by omega)]; congr 1; ring
    have p0 := p k i (by omega) (by omega) (by omega) (by omega)
    have p1 := p k (i-1) (by omega) (by omega) (by omega) (by omega)
    have p2 := p k (i+1) (by omega) (by omega) (by omega) (by omega)
    congr 1
    cases e2 : dims w 2
    · simp only [T2, g22, g12, e2, p0.1, p0.2, p1.1, p1.2, p2.1, p2.2, Bool.false_eq_true, if_false]
    · have := w2' e2
      have p3 := p (k-1) i (by omega) (by omega) (by omega) (by omega)
      have p4 := p (k+1) i (by omega) (by omega) (by omega) (by omega)
      simp only [T2, g22, g12, g32, e2, p0.1, p0.2, p1.1, p1.2, p2.1, p2.2, p3.1, p3.2, p4.1, p4.2, if_true]
  · have hk := h.hk e2
    have e1 := dims12 w e2
    have := w1' e1
    have p : ∀ j' i', g.js - wid (dims w 1) g.ng ≤ j' → j' ≤ g.je + wid (dims w 1) g.ng → g.is - g.ng ≤ i' →
        i' ≤ g.ie + g.ng → P (g.ke + 1) j' i' = P g.ks j' i' ∧ P (g.ke + 1 - 1) j' i' = P (g.ks - 1) j' i' := by
      intro j' i' a b c d
      refine ⟨?_, ?_⟩
      · rw [← hP.k e2 g.ks j' i' a b c d (by omega) (by omega)]; congr 1; ring
      · rw [← hP.k e2 (g.ks - 1) j' i' a b c d (by omega) (by omega)]; congr 1; ring
    have p0 := p j i (by omega) (by omega) (by omega) (by omega)
    have p1 := p j (i-1) (by omega) (by omega) (by omega) (by omega)
    have p2 := p j (i+1) (by omega) (by omega) (by omega) (by omega)
    have p3 := p (j-1) i (by omega) (by omega) (by omega) (by omega)
    have p4 := p (j+1) i (by omega) (by omega) (by omega) (by omega)
    congr 1
    simp only [T3, g33, g13, g23, p0.1, p0.2, p1.1, p1.2, p2.1, p2.2, p3.1, p3.2, p4.1, p4.2]

/-- Products of neighbouring values have the same ends. -/
theorem nb_ends (h : Ok w g) {P O : Arr ℝ} (hP : PerGhost w g P) (hO : PerGhost w g O) {m1 m2 m3 : Arr ℝ} (hm : Ends w g m1 m2 m3)
    (s : ℝ → ℝ → ℝ → ℝ → ℝ → ℝ) :
    Ends w g (fun k j i => s (m1 k j i) (P k j (i-1)) (P k j i) (O k j (i-1)) (O k j i))
      (fun k j i => s (m2 k j i) (P k (j-1) i) (P k j i) (O k (j-1) i) (O k j i))
      (fun k j i => s (m3 k j i) (P (k-1) j i) (P k j i) (O (k-1) j i) (O k j i)) := by
  have hng := h.ng
  have hi := h.hi
  have w2 : 0 ≤ wid (dims w 2) g.ng := by unfold wid; split_ifs <;> omega
  have w1 : 0 ≤ wid (dims w 1) g.ng := by unfold wid; split_ifs <;> omega
  refine ⟨fun k j a b c d => ?_, fun e1 k i a b c d => ?_, fun e2 j i a b c d => ?_⟩
  · have p : ∀ {P : Arr ℝ}, PerGhost w g P → P k j (g.ie + 1) = P k j g.is ∧ P k j (g.ie + 1 - 1) = P k j (g.is - 1) := by
      intro P hP
      refine ⟨?_, ?_⟩
      · rw [← hP.i k j g.is (by omega) (by omega) (by omega) (by omega) (by omega) (by omega)]; congr 1; ring
      · rw [← hP.i k j (g.is - 1) (by omega) (by omega) (by omega) (by omega) (by omega) (by omega)]; congr 1; ring
    simp only [(p hP).1, (p hP).2, (p hO).1, (p hO).2, hm.e1 k j a b c d]
  · have p : ∀ {P : Arr ℝ}, PerGhost w g P → P k (g.je + 1) i = P k g.js i ∧ P k (g.je + 1 - 1) i = P k (g.js - 1) i := by
      intro P hP
      refine ⟨?_, ?_⟩
      · rw [← hP.j e1 k g.js i (by omega) (by omega) (by omega) (by omega) (by omega) (by omega)]; congr 1; ring
      · rw [← hP.j e1 k (g.js - 1) i (by omega) (by omega) (by omega) (by omega) (by omega) (by omega)]; congr 1; ring
    simp only [(p hP).1, (p hP).2, (p hO).1, (p hO).2, hm.e2 e1 k i a b c d]
  · have p : ∀ {P : Arr ℝ}, PerGhost w g P → P (g.ke + 1) j i = P g.ks j i ∧ P (g.ke + 1 - 1) j i = P (g.ks - 1) j i := by
      intro P hP
      refine ⟨?_, ?_⟩
      · rw [← hP.k e2 g.ks j i (by omega) (by omega) (by omega) (by omega) (by omega) (by omega)]; congr 1; ring
      · rw [← hP.k e2 (g.ks - 1) j i (by omega) (by omega) (by omega) (by omega) (by omega) (by omega)]; congr 1; ring
    simp only [(p hP).1, (p hP).2, (p hO).1, (p hO).2, hm.e3 e2 j i a b c d]

/-- The discrete Laplacian. -/
noncomputable def lapl (w : Which) (q : Par) (φ : Arr ℝ) : Arr ℝ := fun k j i => dsum w
  ((φ k j (i-1) - 2 * φ k j i + φ k j (i+1)) / (q.dx1 * q.dx1)) ((φ k (j-1) i - 2 * φ k j i + φ k (j+1) i) / (q.dx2 * q.dx2))
  ((φ (k-1) j i - 2 * φ k j i + φ (k+1) j i) / (q.dx3 * q.dx3))

/-- The total work of gravity. -/
theorem tot_wk (h : Ok w g) {P : Arr ℝ} (hP : PerGhost w g P) {m1 m2 m3 : Arr ℝ} (hm : Ends w g m1 m2 m3) :
    tot g (wk w q m1 m2 m3 P) = - tot g (fun k j i => P k j i * ddif w (q.dt / q.dx1) (q.dt / q.dx2) (q.dt / q.dx3) m1 m2 m3 k j i) := by
  have t := tot_ddif h (q.dt / q.dx1) (q.dt / q.dx2) (q.dt / q.dx3) (nb_ends h hP hP hm (fun m a b _ _ => 0.5 * m * (a + b)))
  rw [eq_neg_iff_add_eq_zero, ← tot_add, ← t]
  refine tot_congr fun k j i _ _ _ _ _ _ => ?_
  unfold wk ddif dsum gwork
  simp only [add_sub_cancel_right]
  split_ifs <;> ring

theorem tot_adj (h : Ok w g) {P O : Arr ℝ} (hP : PerGhost w g P) (hO : PerGhost w g O) :
    tot g (fun k j i => lapl w q P k j i * O k j i) = tot g (fun k j i => P k j i * lapl w q O k j i) := by
  have z : Ends w g (fun _ _ _ => 0) (fun _ _ _ => 0) (fun _ _ _ => 0) := ⟨fun _ _ _ _ _ _ => rfl, fun _ _ _ _ _ _ _ => rfl, fun _ _ _ _ _ _ _ => rfl⟩
  have t := tot_ddif h (1 / (q.dx1 * q.dx1)) (1 / (q.dx2 * q.dx2)) (1 / (q.dx3 * q.dx3)) (nb_ends h hP hO z (fun _ a b c d => b * c - a * d))
  rw [← sub_eq_zero, ← tot_sub, ← t]
  refine tot_congr fun k j i _ _ _ _ _ _ => ?_
  unfold lapl ddif dsum
  simp only [add_sub_cancel_right]
  split_ifs <;> ring

theorem tot_grad (h : Ok w g) {P : Arr ℝ} (hP : PerGhost w g P) :
    tot g (fun k j i => P k j i * lapl w q P k j i) = - tot g (fun k j i => dsum w ((P k j i - P k j (i-1)) ^ 2 / (q.dx1 * q.dx1))
      ((P k j i - P k (j-1) i) ^ 2 / (q.dx2 * q.dx2)) ((P k j i - P (k-1) j i) ^ 2 / (q.dx3 * q.dx3))) := by
  have z : Ends w g (fun _ _ _ => 0) (fun _ _ _ => 0) (fun _ _ _ => 0) := ⟨fun _ _ _ _ _ _ => rfl, fun _ _ _ _ _ _ _ => rfl, fun _ _ _ _ _ _ _ => rfl⟩
  have t := tot_ddif h (1 / (q.dx1 * q.dx1)) (1 / (q.dx2 * q.dx2)) (1 / (q.dx3 * q.dx3)) (nb_ends h hP hP z (fun _ a b _ _ => b * a - a * a))
  rw [eq_neg_iff_add_eq_zero, ← tot_add, ← t]
  refine tot_congr fun k j i _ _ _ _ _ _ => ?_
  unfold lapl ddif dsum
  simp only [add_sub_cancel_right]
  split_ifs <;> ring

end Athena.Grav
