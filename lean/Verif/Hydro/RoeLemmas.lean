import Verif.Hydro.Roe

/-! # Lemmas on Roe's solver: sums over waves, the fan, the hydrodynamic eigensystems -/

namespace Athena.Hydro
noncomputable section
open Classical
variable {ns : ℕ}

/-! ## Specification -/

/-- `Σ f(w) r_w`: the combination of the right eigenvectors with coefficients `f`. -/
def wsum (f : Wave → ℝ) : List Wave → V7
  | [] => V7.zero
  | w :: ws => (w.r.smul (f w)).add (wsum f ws)

/-- The state on the ray `x/t = c` of the linearised Riemann problem with left state `u` and jump `dU`: the waves with speed at most `c`
have passed. -/
def fan (u dU : V7) (ws : List Wave) (c : ℝ) : V7 := u.add (wsum (fun w => if w.ev ≤ c then dot w.l dU else 0) ws)

/-- Members that the configuration does not declare are represented by 0. -/
def V7.Wf (p : Phys) (u : V7) : Prop := (p.iso = true → u.e = 0) ∧ (p.mhd = false → u.b = 0 ∧ u.c = 0)

/-- What the eigensystem has to be: the speeds in ascending order, and the left eigenvectors the dual basis of the right
eigenvectors. -/
structure Esys (p : Phys) (ws : List Wave) : Prop where
  sorted : ws.Pairwise (fun w w' => w.ev ≤ w'.ev)
  complete : ∀ u : V7, u.Wf p → wsum (fun w => dot w.l u) ws = u
  dual : ws.Pairwise (fun w w' => dot w.l w'.r = 0 ∧ dot w'.l w.r = 0)
  unit : ∀ w ∈ ws, dot w.l w.r = 1

/-! ## Sums -/

@[simp] theorem V7.add_zero (u : V7) : u.add V7.zero = u := by simp [V7.add, V7.zero]
@[simp] theorem V7.zero_add (u : V7) : V7.zero.add u = u := by simp [V7.add, V7.zero]
theorem V7.add_assoc (u v w : V7) : (u.add v).add w = u.add (v.add w) := by simp [V7.add, _root_.add_assoc]
@[simp] theorem V7.zero_smul (u : V7) : u.smul 0 = V7.zero := by simp [V7.smul, V7.zero]
@[simp] theorem V7.sub_self (u : V7) : u.sub u = V7.zero := by simp [V7.sub, V7.zero]
@[simp] theorem V7.sub_zero (u : V7) : u.sub V7.zero = u := by simp [V7.sub, V7.zero]
@[simp] theorem dot_zero (l : V7) : dot l V7.zero = 0 := by simp [dot, V7.zero]
theorem dot_add (l u v : V7) : dot l (u.add v) = dot l u + dot l v := by simp only [dot, V7.add]; ring
theorem dot_smul (l u : V7) (k : ℝ) : dot l (u.smul k) = k * dot l u := by simp only [dot, V7.smul]; ring
theorem V7.add_sub (u v : V7) : u.add (v.sub u) = v := by ext <;> simp [V7.add, V7.sub]

theorem wsum_congr {f g : Wave → ℝ} {ws : List Wave} (h : ∀ w ∈ ws, f w = g w) : wsum f ws = wsum g ws := by
  induction ws with
  | nil => rfl
  | cons w ws ih =>
    simp only [wsum]; rw [h w (by simp), ih (fun x hx => h x (by simp [hx]))]

theorem wsum_zero {f : Wave → ℝ} {ws : List Wave} (h : ∀ w ∈ ws, f w = 0) : wsum f ws = V7.zero := by
  induction ws with
  | nil => rfl
  | cons w ws ih =>
    simp only [wsum]; rw [h w (by simp), ih (fun x hx => h x (by simp [hx]))]; simp

theorem wsum_add (f g : Wave → ℝ) (ws : List Wave) : (wsum f ws).add (wsum g ws) = wsum (fun w => f w + g w) ws := by
  induction ws with
  | nil => simp [wsum]
  | cons w ws ih =>
    simp only [wsum]; rw [← ih]; ext <;> simp only [V7.add, V7.smul] <;> ring

theorem wsum_smul (k : ℝ) (f : Wave → ℝ) (ws : List Wave) : (wsum f ws).smul k = wsum (fun w => k * f w) ws := by
  induction ws with
  | nil => simp [wsum, V7.smul, V7.zero]
  | cons w ws ih =>
    simp only [wsum]; rw [← ih]; ext <;> simp only [V7.add, V7.smul] <;> ring

theorem subWaves_eq (f : Wave → ℝ) (F : V7) (ws : List Wave) : subWaves f F ws = F.sub (wsum f ws) := by
  induction ws generalizing F with
  | nil => simp [subWaves, wsum]
  | cons w ws ih =>
    simp only [subWaves, wsum]; rw [ih]; ext <;> simp only [V7.add, V7.smul, V7.sub] <;> ring

theorem dot_wsum (l : V7) (f : Wave → ℝ) (ws : List Wave) (h : ∀ w ∈ ws, dot l w.r = 0) : dot l (wsum f ws) = 0 := by
  induction ws with
  | nil => simp [wsum]
  | cons w ws ih =>
    simp only [wsum]; rw [dot_add, dot_smul, h w (by simp), ih (fun x hx => h x (by simp [hx]))]; simp

/-- The left eigenvectors pick the coefficients. -/
theorem Esys.coeff {p : Phys} {ws : List Wave} (h : Esys p ws) (f : Wave → ℝ) : ∀ w ∈ ws, dot w.l (wsum f ws) = f w := by
  obtain ⟨-, -, hd, hu⟩ := h
  induction ws with
  | nil => simp
  | cons w0 ws ih =>
    intro w hw
    simp only [wsum, dot_add, dot_smul]
    rw [List.pairwise_cons] at hd
    rcases List.mem_cons.mp hw with rfl | hw
    · rw [hu w (by simp), dot_wsum w.l f ws (fun x hx => (hd.1 x hx).1)]; ring
    · rw [(hd.1 w hw).2, ih hd.2 (fun x hx => hu x (by simp [hx])) w hw]; ring

/-! ## The fan -/

theorem fan_cons (u dU : V7) (w : Wave) (ws : List Wave) (c : ℝ) (h : w.ev ≤ c) :
    fan u dU (w :: ws) c = fan (u.add (w.r.smul (dot w.l dU))) dU ws c := by
  simp only [fan, wsum, if_pos h, V7.add_assoc]

theorem fan_before (u dU : V7) (ws : List Wave) (c : ℝ) (h : ∀ w ∈ ws, c < w.ev) : fan u dU ws c = u := by
  rw [fan, wsum_zero (fun w hw => if_neg (not_le.mpr (h w hw)))]; simp

/-- Step 7 rejects the fan exactly if one of its states is rejected. -/
theorem interBad_iff (p : Phys) (Bx : ℝ) (dU : V7) (ws : List Wave) (hs : ws.Pairwise (fun w w' => w.ev ≤ w'.ev)) :
    ∀ (u : V7) (w0 wn : Wave), ws.head? = some w0 → ws.getLast? = some wn →
      (interBad p Bx dU u ws ↔ ∃ c, w0.ev ≤ c ∧ c < wn.ev ∧ badState p Bx (fan u dU ws c)) := by
  induction ws with
  | nil => intro u w0 wn h; simp at h
  | cons w ws ih =>
    intro u w0 wn h0 hn
    have e0 : w = w0 := by simpa using h0
    subst e0
    cases ws with
    | nil =>
      have en : w = wn := by simpa using hn
      subst en
      simp only [interBad, false_iff]
      rintro ⟨c, h1, h2, -⟩; linarith
    | cons w' ws =>
      rw [List.pairwise_cons] at hs
      rw [List.getLast?_cons_cons] at hn
      have hww := hs.1 w' (by simp)
      have hw'n : w'.ev ≤ wn.ev := by
        have hm : wn ∈ w' :: ws := List.mem_of_getLast? hn
        rcases List.mem_cons.mp hm with e | hm
        · rw [e]
        · exact (List.pairwise_cons.mp hs.2).1 wn hm
      simp only [interBad]
      rw [ih hs.2 _ w' wn (by simp) hn]
      constructor
      · rintro (⟨h1, h2⟩ | ⟨c, h1, h2, h3⟩)
        · refine ⟨w.ev, le_refl _, by linarith, ?_⟩
          rw [fan_cons _ _ _ _ _ (le_refl _), fan_before]
          · exact h2
          · intro x hx
            rcases List.mem_cons.mp hx with e | hx
            · rw [e]; exact h1
            · exact lt_of_lt_of_le h1 ((List.pairwise_cons.mp hs.2).1 x hx)
        · exact ⟨c, by linarith, h2, by rw [fan_cons _ _ _ _ _ (by linarith)]; exact h3⟩
      · rintro ⟨c, h1, h2, h3⟩
        rw [fan_cons _ _ _ _ _ h1] at h3
        by_cases hc : c < w'.ev
        · left
          refine ⟨by linarith, ?_⟩
          rw [fan_before] at h3
          · exact h3
          · intro x hx
            rcases List.mem_cons.mp hx with e | hx
            · rw [e]; exact hc
            · exact lt_of_lt_of_le hc ((List.pairwise_cons.mp hs.2).1 x hx)
        · right
          exact ⟨c, not_lt.mp hc, h2, h3⟩

/-! ## The hydrodynamic eigensystems -/

theorem esysIsoHyd_eq (p : Phys) (v1 v2 v3 : ℝ) (hc : 0 < p.cs) : ∃ ws, esysIsoHyd p v1 v2 v3 = some ws ∧
    ws.head?.map Wave.ev = some (v1 - p.cs) ∧ ws.getLast?.map Wave.ev = some (v1 + p.cs) := by
  unfold esysIsoHyd
  rw [fdiv_pos hc, fdiv_pos hc]
  simp only [Option.bind_eq_bind, Option.bind_some, Option.pure_def]
  exact ⟨_, rfl, rfl, rfl⟩

theorem esysIsoHyd_esys (p : Phys) (hi : p.iso = true) (hm : p.mhd = false) (v1 v2 v3 : ℝ) (hc : 0 < p.cs) {ws : List Wave}
    (h : esysIsoHyd p v1 v2 v3 = some ws) : Esys p ws := by
  unfold esysIsoHyd at h
  rw [fdiv_pos hc, fdiv_pos hc] at h
  simp only [Option.bind_eq_bind, Option.bind_some, Option.pure_def, Option.some.injEq] at h
  subst h
  have hc' := hc.ne'
  refine ⟨?_, ?_, ?_, ?_⟩
  · simp only [List.pairwise_cons, List.mem_cons, List.not_mem_nil, or_false, forall_eq_or_imp, forall_eq, List.Pairwise.nil,
      and_true, false_implies, implies_true]
    refine ⟨⟨?_, ?_, ?_⟩, ⟨?_, ?_⟩, ?_⟩ <;> linarith
  · intro u hu
    have he := hu.1 hi
    obtain ⟨hb, hz⟩ := hu.2 hm
    ext <;> simp only [wsum, dot, V7.add, V7.smul, V7.zero, he, hb, hz] <;> field_simp <;> ring
  · simp only [List.pairwise_cons, List.mem_cons, List.not_mem_nil, or_false, forall_eq_or_imp, forall_eq, dot, List.Pairwise.nil,
      and_true, false_implies, implies_true]
    refine ⟨⟨⟨?_, ?_⟩, ⟨?_, ?_⟩, ?_, ?_⟩, ⟨⟨?_, ?_⟩, ?_, ?_⟩, ?_, ?_⟩ <;> (try field_simp) <;> ring
  · simp only [List.mem_cons, List.not_mem_nil, or_false, forall_eq_or_imp, forall_eq, dot]
    refine ⟨?_, ?_, ?_, ?_⟩ <;> (try field_simp) <;> ring

theorem esysAdbHyd_eq (p : Phys) (hg : 0 < p.gamma1) (ht : 0 < p.tiny) (v1 v2 v3 h : ℝ) :
    ∃ ws, esysAdbHyd p v1 v2 v3 h = some ws ∧
    ws.head?.map Wave.ev = some (v1 - Real.sqrt (p.gamma1 * fmax (h - 1/2 * (v1 * v1 + v2 * v2 + v3 * v3)) p.tiny)) ∧
    ws.getLast?.map Wave.ev = some (v1 + Real.sqrt (p.gamma1 * fmax (h - 1/2 * (v1 * v1 + v2 * v2 + v3 * v3)) p.tiny)) := by
  have hpos : 0 < p.gamma1 * fmax (h - 1/2 * (v1 * v1 + v2 * v2 + v3 * v3)) p.tiny := by
    rw [fmax_eq]; exact mul_pos hg (lt_of_lt_of_le ht (le_max_right _ _))
  unfold esysAdbHyd
  simp only
  rw [fsqrt_nonneg hpos.le, fdiv_pos hpos, fdiv_pos hpos]
  simp only [Option.bind_eq_bind, Option.bind_some, Option.pure_def]
  exact ⟨_, rfl, rfl, rfl⟩

theorem esysAdbHyd_esys (p : Phys) (hi : p.iso = false) (hm : p.mhd = false) (hg : 0 < p.gamma1) (ht : 0 < p.tiny) (v1 v2 v3 h : ℝ)
    (hf : p.tiny ≤ h - 1/2 * (v1 * v1 + v2 * v2 + v3 * v3)) {ws : List Wave}
    (hw : esysAdbHyd p v1 v2 v3 h = some ws) : Esys p ws := by
  unfold esysAdbHyd at hw
  simp only at hw
  rw [fmax_eq, max_eq_left hf] at hw
  obtain ⟨K, hK⟩ : ∃ K, K = h - 1/2 * (v1 * v1 + v2 * v2 + v3 * v3) := ⟨_, rfl⟩
  have hKpos : 0 < K := by rw [hK]; linarith
  rw [← hK] at hw
  have hpos := mul_pos hg hKpos
  rw [fsqrt_nonneg hpos.le, fdiv_pos hpos, fdiv_pos hpos] at hw
  obtain ⟨a, ha⟩ : ∃ a, a = Real.sqrt (p.gamma1 * K) := ⟨_, rfl⟩
  have ha0 : 0 < a := by rw [ha]; exact Real.sqrt_pos.mpr hpos
  have hsq : p.gamma1 * K = a ^ 2 := by rw [ha, Real.sq_sqrt hpos.le]
  rw [← ha] at hw
  have hK' : K = a ^ 2 / p.gamma1 := by rw [← hsq]; field_simp
  have hh : h = a ^ 2 / p.gamma1 + 1/2 * (v1 * v1 + v2 * v2 + v3 * v3) := by rw [← hK', hK]; ring
  rw [hsq, hh] at hw
  simp only [Option.bind_eq_bind, Option.bind_some, Option.pure_def, Option.some.injEq] at hw
  subst hw
  have hg' := hg.ne'
  have ha' := ha0.ne'
  refine ⟨?_, ?_, ?_, ?_⟩
  · simp only [List.pairwise_cons, List.mem_cons, List.not_mem_nil, or_false, forall_eq_or_imp, forall_eq, List.Pairwise.nil,
      and_true, false_implies, implies_true]
    refine ⟨⟨?_, ?_, ?_, ?_⟩, ⟨?_, ?_, ?_⟩, ⟨?_, ?_⟩, ?_⟩ <;> linarith
  · intro u hu
    obtain ⟨hb, hz⟩ := hu.2 hm
    ext <;> simp only [wsum, dot, V7.add, V7.smul, V7.zero, hb, hz] <;> field_simp <;> ring
  · simp only [List.pairwise_cons, List.mem_cons, List.not_mem_nil, or_false, forall_eq_or_imp, forall_eq, dot, List.Pairwise.nil,
      and_true, false_implies, implies_true]
    refine ⟨⟨⟨?_, ?_⟩, ⟨?_, ?_⟩, ⟨?_, ?_⟩, ?_, ?_⟩, ⟨⟨?_, ?_⟩, ⟨?_, ?_⟩, ?_, ?_⟩, ⟨⟨?_, ?_⟩, ?_, ?_⟩, ?_, ?_⟩ <;>
      (try field_simp) <;> ring
  · simp only [List.mem_cons, List.not_mem_nil, or_false, forall_eq_or_imp, forall_eq, dot]
    refine ⟨?_, ?_, ?_, ?_, ?_⟩ <;> (try field_simp) <;> ring

end
end Athena.Hydro
