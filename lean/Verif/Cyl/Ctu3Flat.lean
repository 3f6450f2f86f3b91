import Verif.Cyl.Ctu3False
import Mathlib.Data.List.Nodup

/-!
# C91: without rotation the 3D CTU integrator keeps data independent of the height so
-/

namespace Athena.Cyl
open Athena.Vl3
open Athena.Fofc (zones InGrid mem_zones span)

variable {ns : ℕ}

theorem span_nodup (a b : ℤ) : (span a b).Nodup := by
  unfold span
  exact List.Nodup.map (fun x y h => by simpa using h) List.nodup_range

theorem zones_nodup (g : Rng) : (zones g).Nodup := by
  unfold zones
  rw [List.nodup_flatMap]
  refine ⟨fun k _ => ?_, ?_⟩
  · rw [List.nodup_flatMap]
    refine ⟨fun j _ => (span_nodup _ _).map fun x y h => by simpa using h, ?_⟩
    refine (span_nodup _ _).imp fun {a b} h => ?_
    intro z h1 h2
    simp only [List.mem_map] at h1 h2
    obtain ⟨_, _, rfl⟩ := h1
    obtain ⟨_, _, h3⟩ := h2
    exact h (by simpa using (congrArg (fun z => z.2.1) h3).symm)
  · refine (span_nodup _ _).imp fun {a b} h => ?_
    intro z h1 h2
    simp only [List.mem_map, List.mem_flatMap] at h1 h2
    obtain ⟨_, _, _, _, rfl⟩ := h1
    obtain ⟨_, _, _, _, h3⟩ := h2
    exact h (by simpa using (congrArg (fun z => z.1) h3).symm)

section
variable (P : Phys) (G : Geo) (dt : ℝ) (g : Rng) (X : CtuIn ns)

/-- One turn of the loop on the zone it is at, without rotation. -/
noncomputable def geoOf (k j i : ℤ) (u : Cons ℝ ns) : Cons ℝ ns :=
  { u with M1 := u.M1 + dt * geoSrc P none G dt g X (fun _ _ _ => u) k j i }

theorem geoTurn_local (U : Arr (Cons ℝ ns)) (k j i : ℤ) :
    geoTurn P none G dt g X U (k, j, i) = change (geoOf P G dt g X k j i) k j i U := by
  funext k' j' i'
  simp only [geoTurn, change]
  by_cases h : k' = k ∧ j' = j ∧ i' = i
  · rw [if_pos h, if_pos h]
    obtain ⟨rfl, rfl, rfl⟩ := h
    rfl
  · rw [if_neg h, if_neg h]

theorem geoFold_out (l : List (ℤ × ℤ × ℤ)) (U : Arr (Cons ℝ ns)) {k j i : ℤ} (h : (k, j, i) ∉ l) :
    l.foldl (geoTurn P none G dt g X) U k j i = U k j i := by
  induction l generalizing U with
  | nil => rfl
  | cons z l ih =>
    obtain ⟨k', j', i'⟩ := z
    rw [List.foldl_cons, ih _ (fun h' => h (List.mem_cons_of_mem _ h')), geoTurn_local]
    refine if_neg fun e => h ?_
    obtain ⟨rfl, rfl, rfl⟩ := e
    exact List.mem_cons_self

theorem geoFold_at (l : List (ℤ × ℤ × ℤ)) (hl : l.Nodup) (U : Arr (Cons ℝ ns)) {k j i : ℤ} (h : (k, j, i) ∈ l) :
    l.foldl (geoTurn P none G dt g X) U k j i = geoOf P G dt g X k j i (U k j i) := by
  induction l generalizing U with
  | nil => simp at h
  | cons z l ih =>
    rw [List.nodup_cons] at hl
    rw [List.foldl_cons]
    rcases List.mem_cons.1 h with h' | h'
    · subst h'
      rw [geoFold_out P G dt g X l _ hl.1, geoTurn_local]
      exact if_pos ⟨rfl, rfl, rfl⟩
    · rw [ih hl.2 _ h']
      obtain ⟨k', j', i'⟩ := z
      rw [geoTurn_local]
      congr 1
      refine if_neg fun e => hl.1 ?_
      obtain ⟨rfl, rfl, rfl⟩ := e
      exact h'

theorem geoLoop_at (U : Arr (Cons ℝ ns)) {k j i : ℤ} (h : InGrid g k j i) :
    geoLoop P none G dt g X U k j i = geoOf P G dt g X k j i (U k j i) :=
  geoFold_at P G dt g X _ (zones_nodup g) U (mem_zones.2 h)

end

/-- **C91, CTU.** In a frame that does not rotate, if neither the potential nor anything that enters the last steps depends on the
height, then neither does the result.  Missing: rotating frames, where it is false. -/
theorem ctu_flat_partial (P : Phys) (hP : ∀ Φ, P.pot = some Φ → ∀ x1 x2 x3 x3', Φ x1 x2 x3 = Φ x1 x2 x3') (G : Geo) (dt : ℝ) (g : Rng)
    (X : CtuIn ns) (S : St ℝ ns) (h : FlatIn X S) {k k' j i : ℤ} (hk : InGrid g k j i) (hk' : InGrid g k' j i) :
    (ctuFinish P none G dt g X S).U k j i = (ctuFinish P none G dt g X S).U k' j i := by
  obtain ⟨⟨a1, a2⟩, ⟨a3, a4⟩, ⟨a5, a6⟩⟩ := hk
  obtain ⟨⟨b1, b2⟩, -⟩ := hk'
  have hd : dhalf G dt g X S.U k j i = dhalf G dt g X S.U k' j i := by
    simp only [dhalf, h.U k k', h.F1 k k', h.F2 k k', h.F3 (k+1) k', h.F3 (k'+1) k', h.F3 k k']
  have hg : geoOf P G dt g X k j i (S.U k j i) = geoOf P G dt g X k' j i (S.U k' j i) := by
    have hm : m2h P none G dt g X S.U k j i = m2h P none G dt g X S.U k' j i := by
      simp only [m2h, h.U k k', h.F1 k k', h.F2 k k', h.F3 (k+1) k', h.F3 (k'+1) k', h.F3 k k']
      cases e : P.pot with
      | none => rfl
      | some Φ => simp only [hP Φ e _ _ (cc3 G g k) (cc3 G g k')]
    have hs : geoSrc P none G dt g X S.U k j i = geoSrc P none G dt g X S.U k' j i := by
      simp only [geoSrc, hd, hm, h.b1 k k', h.b2 k k', h.b3 (k+1) k', h.b3 (k'+1) k', h.b3 k k', h.Pf k k']
    have e : ∀ k : ℤ, geoSrc P none G dt g X (fun _ _ _ => S.U k j i) k j i = geoSrc P none G dt g X S.U k j i := fun _ => rfl
    simp only [geoOf, e, hs]
    rw [h.U k k' j i]
  have hB1 : ∀ i' : ℤ, i' = i ∨ i' = i + 1 → finB1 G dt g S X.e2 X.e3 k j i' = finB1 G dt g S X.e2 X.e3 k' j i' := by
    intro i' hi'
    simp (disch := omega) only [finB1, addFaces1_in, cct1, ct1, h.B1 k k', h.e2 (k+1) k', h.e2 (k'+1) k', h.e2 k k', h.e3 k k']
  have hB2 : ∀ j' : ℤ, j' = j ∨ j' = j + 1 → finB2 G dt g S X.e1 X.e3 k j' i = finB2 G dt g S X.e1 X.e3 k' j' i := by
    intro j' hj'
    simp (disch := omega) only [finB2, addFaces2_in, cct2, ct2, h.B2 k k', h.e1 (k+1) k', h.e1 (k'+1) k', h.e1 k k', h.e3 k k']
  have hB3 : ∀ l l' : ℤ, (l = k ∨ l = k + 1) → (l' = k' ∨ l' = k' + 1) → finB3 G dt g S X.e1 X.e2 l j i = finB3 G dt g S X.e1 X.e2 l' j i := by
    intro l l' hl hl'
    simp (disch := omega) only [finB3, addFaces3_in, cct3, h.B3 l l', h.e1 l l', h.e2 l l']
  rw [ctuFinish_in P none G dt g X S a1 a2 a3 a4 a5 a6, ctuFinish_in P none G dt g X S b1 b2 a3 a4 a5 a6,
    geoLoop_at P G dt g X S.U ⟨⟨a1, a2⟩, ⟨a3, a4⟩, ⟨a5, a6⟩⟩, geoLoop_at P G dt g X S.U ⟨⟨b1, b2⟩, ⟨a3, a4⟩, ⟨a5, a6⟩⟩, hg, hd]
  have hgr : ∀ u, ctuGrav P G dt g X (dhalf G dt g X S.U k' j i) k j i u = ctuGrav P G dt g X (dhalf G dt g X S.U k' j i) k' j i u := by
    intro u
    have p : ∀ x1 x2 x3 x3', phi P x1 x2 x3 = phi P x1 x2 x3' := by
      intro x1 x2 x3 x3'
      unfold phi
      cases e : P.pot with
      | none => rfl
      | some Φ => exact hP Φ e _ _ _ _
    rw [ctuGrav_eq, ctuGrav_eq]
    simp only [h.F1 k k', h.F2 k k', h.F3 (k+1) k', h.F3 (k'+1) k', h.F3 k k', p _ _ _ 0]
  rw [hgr]
  simp only [cavgB, h.F1 k k', h.F2 k k', h.F3 (k+1) k', h.F3 (k'+1) k', h.F3 k k', hB1 i (.inl rfl), hB1 (i+1) (.inr rfl),
    hB2 j (.inl rfl), hB2 (j+1) (.inr rfl), hB3 k k' (.inl rfl) (.inl rfl), hB3 (k+1) (k'+1) (.inr rfl) (.inr rfl)]

/-- The hypotheses of `ctu_flat_partial` and `ctu_conserves_partial` can be met, with a potential linear in the radius. -/
example : ∃ (X : CtuIn 0) (S : St ℝ 0), FlatIn X S ∧ (X.F1 4 4 5).d ≠ 0 ∧
    let P : Phys := ⟨.isothermal 1, 1/1000, some fun x _ _ => 3 * x⟩
    (ctuFinish P none wedge 1 tower X S).U 4 4 4 = (ctuFinish P none wedge 1 tower X S).U 5 4 4 ∧
    (∀ q : Quant 0, q.Free P ∧ Straight P wedge tower q ∧ Inertial none q) := by
  refine ⟨leak, still, by constructor <;> intro _ _ _ _ <;> rfl, by norm_num [leak, massF], ?_, ?_⟩
  · refine ctu_flat_partial _ (fun Φ h => ?_) wedge 1 tower leak still (by constructor <;> intro _ _ _ _ <;> rfl) (by unfold InGrid; decide)
      (by unfold InGrid; decide)
    simp only [Option.some.injEq] at h
    subst h
    intros; rfl
  · intro q
    refine ⟨by cases q <;> simp [Quant.Free, phi], ?_, by cases q <;> simp [Inertial]⟩
    cases q <;> simp only [Straight]
    intro k j i
    simp only [phi, ri_succ, r]
    ring

end Athena.Cyl
