import Verif.Base
import Mathlib.Analysis.SpecialFunctions.Trigonometric.Basic
import Mathlib.Tactic.FieldSimp
import Mathlib.Tactic.Linarith
import Mathlib.Tactic.NormNum
import Mathlib.Tactic.Ring

/-!
# The current sheets: prob/current_sheet.c

The stores of the loop over the zones of a Grid, one after the other.  Simplifications: adiabatic gas, real numbers instead of floating-point numbers; the centres of the zones
are given.
-/

namespace Athena.Sheet

/-- A Grid: first and last active zones, the numbers of zones allocated (init_grid.c:152-182; those in x1 and x3 are not needed), the centres of the zones. -/
structure Grid where
  is : ℤ
  ie : ℤ
  js : ℤ
  je : ℤ
  ks : ℤ
  ke : ℤ
  n2z : ℤ
  x1 : ℤ → ℝ
  x2 : ℤ → ℝ

/-- Velocity and pressure of the input, current_sheet.c:40-41, and `Gamma`. -/
structure Input where
  γ : ℝ
  uflow : ℝ
  beta : ℝ

/-- `ConsS`; momentum along x2 and x3 and field along x1 and x3 as stored. -/
@[ext] structure Zone where
  d : ℝ
  M1 : ℝ
  M2 : ℝ
  M3 : ℝ
  E : ℝ
  B1 : ℝ
  B2 : ℝ
  B3 : ℝ

/-- The arrays. -/
structure Arrays where
  U : ℤ → ℤ → ℤ → Zone
  B1 : ℤ → ℤ → ℤ → ℝ
  B2 : ℤ → ℤ → ℤ → ℝ
  B3 : ℤ → ℤ → ℤ → ℝ

/-- A store to `[k][j][i]`. -/
def set {α : Type} (A : ℤ → ℤ → ℤ → α) (k j i : ℤ) (v : α) : ℤ → ℤ → ℤ → α := fun k' j' i' => if k' = k ∧ j' = j ∧ i' = i then v else A k' j' i'

open Classical in
/-- `U1d` with the field of :71-73: the state of the zone at `x1`, `x2`, current_sheet.c:42-73.  The energy is that of the Newtonian `Prim1D_to_Cons1D`, convert_var.c:432-461. -/
noncomputable def state (I : Input) (x1 x2 : ℝ) : Zone :=
  let vx := I.uflow * Real.cos (Real.pi * x2)
  let by' : ℝ := if x1 > 0.5 ∧ x1 < 1.5 then -1 else 1
  ⟨1, 1 * vx, 1 * 0, 1 * 0, I.beta / (I.γ - 1) + 0.5 * 1 * (vx * vx + 0 * 0 + 0 * 0) + 0.5 * (0 * 0 + 1 * 1 + 0 * 0), 0, by', 0⟩

/-- The body of the loop, current_sheet.c:52-75, in a zone; `B2i[k][j+1][i]` has to be in the array. -/
noncomputable def body (I : Input) (G : Grid) (A : Arrays) (k j i : ℤ) : Res Arrays :=
  let s := state I (G.x1 i) (G.x2 j)
  let B1 := set A.B1 k j i 0
  let B1 := if i = G.ie then set B1 k j (i + 1) 0 else B1
  let B2 := set A.B2 k j i s.B2
  let B3 := set A.B3 k j i 0
  let B3 := if k = G.ke ∧ G.ke > G.ks then set B3 (k + 1) j i 0 else B3
  if j = G.je then
    if j + 1 < G.n2z then .ok ⟨set A.U k j i s, B1, set B2 k (j + 1) i s.B2, B3⟩ else .ub
  else .ok ⟨set A.U k j i s, B1, B2, B3⟩

/-- The zones visited so far, one by one; the order does not matter to the theorems. -/
noncomputable def run (I : Input) (G : Grid) (A : Arrays) : List (ℤ × ℤ × ℤ) → Res Arrays
  | [] => .ok A
  | (k, j, i) :: zs => match body I G A k j i with
    | .ok A' => run I G A' zs
    | .fatal => .fatal
    | .ub => .ub

/-! ## Specification -/

/-- An active zone. -/
def Grid.Act (G : Grid) (k j i : ℤ) : Prop := G.ks ≤ k ∧ k ≤ G.ke ∧ G.js ≤ j ∧ j ≤ G.je ∧ G.is ≤ i ∧ i ≤ G.ie

/-- A loop over the active zones: it visits each of them and nothing else. -/
def Grid.Loop (G : Grid) (zs : List (ℤ × ℤ × ℤ)) : Prop := ∀ k j i, (k, j, i) ∈ zs ↔ G.Act k j i

/-- The field along x2: reversed between 0.5 and 1.5. -/
noncomputable def field (x : ℝ) : ℝ := open Classical in if 0.5 < x ∧ x < 1.5 then -1 else 1

/-- The field of zone (k, j, i) through its faces: faces in x3 only count where there is more than one zone. -/
noncomputable def div (G : Grid) (A : Arrays) (dx1 dx2 dx3 : ℝ) (k j i : ℤ) : ℝ :=
  (A.B1 k j (i + 1) - A.B1 k j i) / dx1 + (A.B2 k (j + 1) i - A.B2 k j i) / dx2 + (if G.ks < G.ke then (A.B3 (k + 1) j i - A.B3 k j i) / dx3 else 0)

/-- Gas pressure and magnetic pressure. -/
noncomputable def Zone.total (γ : ℝ) (z : Zone) : ℝ := (γ - 1) * (z.E - (z.M1 ^ 2 + z.M2 ^ 2 + z.M3 ^ 2) / (2 * z.d) - (z.B1 ^ 2 + z.B2 ^ 2 + z.B3 ^ 2) / 2) + (z.B1 ^ 2 + z.B2 ^ 2 + z.B3 ^ 2) / 2

/-! ## Theorems -/

theorem state_B2 (I : Input) (x1 x2 : ℝ) : (state I x1 x2).B2 = field x1 := by
  unfold state field; simp only [gt_iff_lt]

/-- What the arrays hold where `done` says that the zone was visited. -/
structure Inv (I : Input) (G : Grid) (A : Arrays) (done : ℤ → ℤ → ℤ → Prop) : Prop where
  U : ∀ k j i, done k j i → A.U k j i = state I (G.x1 i) (G.x2 j)
  B1 : ∀ k j i, done k j i → A.B1 k j i = 0 ∧ (i = G.ie → A.B1 k j (i + 1) = 0)
  B2 : ∀ k j i, done k j i → A.B2 k j i = field (G.x1 i) ∧ (j = G.je → A.B2 k (j + 1) i = field (G.x1 i))
  B3 : ∀ k j i, done k j i → A.B3 k j i = 0 ∧ (k = G.ke → G.ks < G.ke → A.B3 (k + 1) j i = 0)

theorem set_const {A : ℤ → ℤ → ℤ → ℝ} {k j i k' j' i' : ℤ} {v : ℝ} (h : A k' j' i' = v ∨ (k' = k ∧ j' = j ∧ i' = i)) : set A k j i v k' j' i' = v := by
  unfold set; split
  · rfl
  · rename_i n; exact h.resolve_right n

/-- A store of what depends on `i` only. -/
theorem set_field {A : ℤ → ℤ → ℤ → ℝ} {g : ℤ → ℝ} {k j i k' j' i' : ℤ} (h : A k' j' i' = g i' ∨ (k' = k ∧ j' = j ∧ i' = i)) : set A k j i (g i) k' j' i' = g i' := by
  unfold set; split
  · rename_i q; rw [q.2.2]
  · rename_i n; exact h.resolve_right n

theorem body_inv {I : Input} {G : Grid} {A A' : Arrays} {done : ℤ → ℤ → ℤ → Prop} {k j i : ℤ} (h : Inv I G A done) (hb : body I G A k j i = .ok A') :
    Inv I G A' (fun k' j' i' => done k' j' i' ∨ (k' = k ∧ j' = j ∧ i' = i)) := by
  have g2 : ∀ (B : ℤ → ℤ → ℤ → ℝ) (a b c a' b' c' : ℤ), (B a' b' c' = field (G.x1 c') ∨ (a' = a ∧ b' = b ∧ c' = c)) → set B a b c (field (G.x1 c)) a' b' c' = field (G.x1 c') :=
    fun B a b c a' b' c' q => set_field (g := fun i => field (G.x1 i)) q
  have hU : ∀ k' j' i', (done k' j' i' ∨ (k' = k ∧ j' = j ∧ i' = i)) → set A.U k j i (state I (G.x1 i) (G.x2 j)) k' j' i' = state I (G.x1 i') (G.x2 j') := by
    intro k' j' i' q
    unfold set; split
    · rename_i e; rw [e.2.1, e.2.2]
    · rename_i n; exact h.U _ _ _ (q.resolve_right n)
  have hB1 : ∀ k' j' i', (done k' j' i' ∨ (k' = k ∧ j' = j ∧ i' = i)) →
      (if i = G.ie then set (set A.B1 k j i 0) k j (i + 1) 0 else set A.B1 k j i 0) k' j' i' = 0 ∧
      (i' = G.ie → (if i = G.ie then set (set A.B1 k j i 0) k j (i + 1) 0 else set A.B1 k j i 0) k' j' (i' + 1) = 0) := by
    intro k' j' i' q
    rcases q with q | ⟨rfl, rfl, rfl⟩
    · obtain ⟨a, b⟩ := h.B1 _ _ _ q
      refine ⟨?_, fun e => ?_⟩
      · split
        · exact set_const (Or.inl (set_const (Or.inl a)))
        · exact set_const (Or.inl a)
      · split
        · exact set_const (Or.inl (set_const (Or.inl (b e))))
        · exact set_const (Or.inl (b e))
    · refine ⟨?_, fun e => ?_⟩
      · split
        · exact set_const (Or.inl (set_const (Or.inr ⟨rfl, rfl, rfl⟩)))
        · exact set_const (Or.inr ⟨rfl, rfl, rfl⟩)
      · rw [if_pos e]; exact set_const (Or.inr ⟨rfl, rfl, rfl⟩)
  have hB3 : ∀ k' j' i', (done k' j' i' ∨ (k' = k ∧ j' = j ∧ i' = i)) →
      (if k = G.ke ∧ G.ke > G.ks then set (set A.B3 k j i 0) (k + 1) j i 0 else set A.B3 k j i 0) k' j' i' = 0 ∧
      (k' = G.ke → G.ks < G.ke → (if k = G.ke ∧ G.ke > G.ks then set (set A.B3 k j i 0) (k + 1) j i 0 else set A.B3 k j i 0) (k' + 1) j' i' = 0) := by
    intro k' j' i' q
    rcases q with q | ⟨rfl, rfl, rfl⟩
    · obtain ⟨a, b⟩ := h.B3 _ _ _ q
      refine ⟨?_, fun e l => ?_⟩
      · split
        · exact set_const (Or.inl (set_const (Or.inl a)))
        · exact set_const (Or.inl a)
      · split
        · exact set_const (Or.inl (set_const (Or.inl (b e l))))
        · exact set_const (Or.inl (b e l))
    · refine ⟨?_, fun e l => ?_⟩
      · split
        · exact set_const (Or.inl (set_const (Or.inr ⟨rfl, rfl, rfl⟩)))
        · exact set_const (Or.inr ⟨rfl, rfl, rfl⟩)
      · rw [if_pos ⟨e, l⟩]; exact set_const (Or.inr ⟨rfl, rfl, rfl⟩)
  unfold body at hb
  simp only [state_B2] at hb
  by_cases hj : j = G.je
  · rw [if_pos hj] at hb
    split at hb
    · cases hb
      refine ⟨hU, hB1, ?_, hB3⟩
      intro k' j' i' q
      rcases q with q | ⟨rfl, rfl, rfl⟩
      · obtain ⟨a, b⟩ := h.B2 _ _ _ q
        exact ⟨g2 _ _ _ _ _ _ _ (Or.inl (g2 _ _ _ _ _ _ _ (Or.inl a))), fun e => g2 _ _ _ _ _ _ _ (Or.inl (g2 _ _ _ _ _ _ _ (Or.inl (b e))))⟩
      · exact ⟨g2 _ _ _ _ _ _ _ (Or.inl (g2 _ _ _ _ _ _ _ (Or.inr ⟨rfl, rfl, rfl⟩))), fun _ => g2 _ _ _ _ _ _ _ (Or.inr ⟨rfl, rfl, rfl⟩)⟩
    · cases hb
  · rw [if_neg hj] at hb
    cases hb
    refine ⟨hU, hB1, ?_, hB3⟩
    intro k' j' i' q
    rcases q with q | ⟨rfl, rfl, rfl⟩
    · obtain ⟨a, b⟩ := h.B2 _ _ _ q
      exact ⟨g2 _ _ _ _ _ _ _ (Or.inl a), fun e => g2 _ _ _ _ _ _ _ (Or.inl (b e))⟩
    · exact ⟨g2 _ _ _ _ _ _ _ (Or.inr ⟨rfl, rfl, rfl⟩), fun e => absurd e hj⟩

theorem run_inv {I : Input} {G : Grid} : ∀ (zs : List (ℤ × ℤ × ℤ)) {A A' : Arrays} {done : ℤ → ℤ → ℤ → Prop}, Inv I G A done → run I G A zs = .ok A' →
    Inv I G A' (fun k j i => done k j i ∨ (k, j, i) ∈ zs)
  | [], A, A', done, h, hr => by
    cases hr
    exact ⟨fun k j i q => h.U k j i (by simpa using q), fun k j i q => h.B1 k j i (by simpa using q), fun k j i q => h.B2 k j i (by simpa using q), fun k j i q => h.B3 k j i (by simpa using q)⟩
  | (k, j, i) :: zs, A, A', done, h, hr => by
    unfold run at hr
    split at hr
    · rename_i A1 hb
      have h2 := run_inv zs (body_inv h hb) hr
      have imp : ∀ k' j' i', (done k' j' i' ∨ (k', j', i') ∈ (k, j, i) :: zs) → ((done k' j' i' ∨ (k' = k ∧ j' = j ∧ i' = i)) ∨ (k', j', i') ∈ zs) := by
        intro k' j' i' q
        rcases q with q | q
        · exact Or.inl (Or.inl q)
        · rcases List.mem_cons.mp q with q | q
          · left; right; simpa using q
          · exact Or.inr q
      exact ⟨fun k j i q => h2.U k j i (imp k j i q), fun k j i q => h2.B1 k j i (imp k j i q), fun k j i q => h2.B2 k j i (imp k j i q), fun k j i q => h2.B3 k j i (imp k j i q)⟩
    · cases hr
    · cases hr

/-- **C151.**  What the loop leaves in an active zone: the velocity of the input along x1, the field along x2 that is reversed between 0.5 and 1.5, the same at the
    centre as on both faces, no divergence, and a uniform total pressure, `beta` + 1/2. -/
theorem sheet_partial {I : Input} (hg : I.γ ≠ 1) {G : Grid} {A A' : Arrays} {zs : List (ℤ × ℤ × ℤ)} (hz : G.Loop zs) (hr : run I G A zs = .ok A') {k j i : ℤ} (ha : G.Act k j i) (dx1 dx2 dx3 : ℝ) :
    (A'.U k j i).d = 1 ∧ (A'.U k j i).M1 = I.uflow * Real.cos (Real.pi * G.x2 j) ∧ (A'.U k j i).M2 = 0 ∧ (A'.U k j i).M3 = 0 ∧
      (A'.U k j i).B2 = field (G.x1 i) ∧ (A'.U k j i).B1 = (A'.B1 k j i + A'.B1 k j (i + 1)) / 2 ∧ (A'.U k j i).B2 = (A'.B2 k j i + A'.B2 k (j + 1) i) / 2 ∧
      div G A' dx1 dx2 dx3 k j i = 0 ∧ (A'.U k j i).total I.γ = I.beta + 1 / 2 := by
  have hg' : I.γ - 1 ≠ 0 := sub_ne_zero.mpr hg
  have h := run_inv zs (A := A) (done := fun _ _ _ => False) ⟨fun _ _ _ q => q.elim, fun _ _ _ q => q.elim, fun _ _ _ q => q.elim, fun _ _ _ q => q.elim⟩ hr
  have m : ∀ {k j i : ℤ}, G.Act k j i → (False ∨ (k, j, i) ∈ zs) := fun q => Or.inr ((hz _ _ _).mpr q)
  obtain ⟨a1, a2, a3, a4, a5, a6⟩ := ha
  have act : G.Act k j i := ⟨a1, a2, a3, a4, a5, a6⟩
  have u := h.U k j i (m act)
  have b1 := h.B1 k j i (m act)
  have b2 := h.B2 k j i (m act)
  have b3 := h.B3 k j i (m act)
  have c1 : A'.B1 k j (i + 1) = 0 := by
    by_cases e : i = G.ie
    · exact b1.2 e
    · exact (h.B1 k j (i + 1) (m ⟨a1, a2, a3, a4, by omega, by omega⟩)).1
  have c2 : A'.B2 k (j + 1) i = field (G.x1 i) := by
    by_cases e : j = G.je
    · exact b2.2 e
    · exact (h.B2 k (j + 1) i (m ⟨a1, a2, by omega, by omega, a5, a6⟩)).1
  have c3 : G.ks < G.ke → A'.B3 (k + 1) j i = 0 := by
    intro l
    by_cases e : k = G.ke
    · exact b3.2 e l
    · exact (h.B3 (k + 1) j i (m ⟨by omega, by omega, a3, a4, a5, a6⟩)).1
  have hf : field (G.x1 i) ^ 2 = 1 := by unfold field; split <;> norm_num
  have s2 : (state I (G.x1 i) (G.x2 j)).B2 = field (G.x1 i) := state_B2 _ _ _
  refine ⟨by rw [u]; rfl, by rw [u]; simp [state], by rw [u]; simp [state], by rw [u]; simp [state], by rw [u, s2], by rw [u, b1.1, c1]; simp [state], by rw [u, s2, b2.1, c2]; ring, ?_, ?_⟩
  · unfold div
    rw [b1.1, c1, b2.1, c2]
    split
    · rename_i l; rw [b3.1, c3 l]; ring
    · ring
  · rw [u]
    unfold Zone.total
    rw [s2, hf]
    simp only [state]
    field_simp
    ring

/-- The loop ends as it should on a Grid with more than one zone in x2, where `nghost` zones follow the active ones. -/
theorem run_ok (I : Input) (G : Grid) (h : G.je + 1 < G.n2z) : ∀ (zs : List (ℤ × ℤ × ℤ)) (A : Arrays), ∃ A', run I G A zs = .ok A'
  | [], A => ⟨A, rfl⟩
  | (k, j, i) :: zs, A => by
    have : ∃ A1, body I G A k j i = .ok A1 := by
      unfold body
      simp only
      by_cases hj : j = G.je
      · rw [if_pos hj, if_pos (by omega)]; exact ⟨_, rfl⟩
      · rw [if_neg hj]; exact ⟨_, rfl⟩
    obtain ⟨A1, e⟩ := this
    obtain ⟨A', e'⟩ := run_ok I G h zs A1
    exact ⟨A', by rw [run, e]; exact e'⟩

/-- **C151 (refuted).**  In one dimension (`js` = `je` = 0, one zone allocated in x2) the first store beyond the zone is outside the array. -/
theorem one_dim_false (I : Input) (G : Grid) (h : G.je = 0) (hn : G.n2z = 1) (A : Arrays) (k i : ℤ) (zs : List (ℤ × ℤ × ℤ)) : run I G A ((k, 0, i) :: zs) = .ub := by
  have : body I G A k 0 i = .ub := by
    unfold body
    simp only
    rw [if_pos h.symm, if_neg (by omega)]
  rw [run, this]

/-- A Grid of two zones with two ghost zones on each side. -/
noncomputable def sample : Grid := ⟨2, 2, 2, 3, 0, 0, 6, fun i => i / 3, fun j => j⟩

example : sample.Loop [(0, 2, 2), (0, 3, 2)] ∧ sample.je + 1 < sample.n2z ∧ field (sample.x1 2) = -1 := by
  refine ⟨?_, by norm_num [sample], ?_⟩
  · intro k j i
    simp only [List.mem_cons, Prod.mk.injEq, List.not_mem_nil, or_false, Grid.Act, sample]
    omega
  · unfold field sample
    rw [if_pos (by norm_num)]

end Athena.Sheet
