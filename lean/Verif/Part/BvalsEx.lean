import Verif.Part.BvalsProps
import Mathlib.Data.Fin.VecNotation
import Mathlib.Tactic.FinCases

/-!
# C84: cases that meet the hypotheses, and where the code fails
-/

namespace Athena.Part
noncomputable section

theorem v2 {α : Type} (a b c : α) : ![a, b, c] 2 = c := rfl

/-- Two Grids in x1 (periodic) and in x2 (walls), one zone in x3. -/
def exD : Dom := ![⟨1, fun g => g, true, 1/4, 4, .periodic, .periodic⟩,
  ⟨1, fun g => g, true, 1/4, 4, .reflect, .reflect⟩, ⟨0, fun g => g, false, 1, 4, .outflow, .outflow⟩]

theorem exD_good : GoodDom exD where
  mono := by intro d g _; fin_cases d <;> simp [v2, exD]
  per := by intro d; fin_cases d <;> simp [v2, exD]
  one := by intro d; fin_cases d <;> simp [v2, exD]
  ext := by intro d; fin_cases d <;> norm_num [v2, exD]
  dim := by simp [v2, exD]
  x3out := by simp [v2, exD]
  x3refl := by simp [v2, exD]

/-- A particle leaving the Domain at a corner. -/
def exP : Grain := ⟨![21/10, 21/10, 1/2], ![1, 1, 0], 0, 10, 7, 0⟩
/-- The Grid it leaves, the last one in both directions. -/
def exR : Rank exD := fun d => Fin.last _

example : Ready exD exR exP := by
  refine ⟨?_, Or.inl rfl, by simp [exP], by simp [exP], by simp [exP]⟩
  intro d
  fin_cases d <;> norm_num [v2, Reach1, exD, exR, exP] <;> simp [Fin.last]

/-- Where it goes: the first Grid in x1, the last in x2. -/
def exQ : Grain := ⟨![1/10, 19/10, 1/2], ![1, -1, 0], 0, 1, 7, 0⟩

example : settle exD exP = some exQ := by
  have hx : ∀ (a b : Fin 3 → ℝ), a 0 = b 0 → a 1 = b 1 → a 2 = b 2 → a = b := by
    intro a b h0 h1 h2; funext d; fin_cases d <;> assumption
  have h0 : settle1 exD 0 exP = some { exP with x := ![1/10, 21/10, 1/2] } := by
    norm_num [v2, settle1, exD, exP]
    apply hx <;> norm_num [v2, Function.update] <;> decide
  have h1 : settle1 exD 1 { exP with x := ![1/10, 21/10, 1/2] }
      = some { exQ with pos := 10 } := by
    norm_num [v2, settle1, exD, exP, exQ]
    constructor <;> apply hx <;> norm_num [v2, Function.update] <;> decide
  have h2 : settle1 exD 2 { exQ with pos := 10 } = some { exQ with pos := 10 } := by
    norm_num [v2, settle1, exD]
  unfold settle
  rw [h0]
  simp only [Option.bind_eq_bind, Option.bind_some]
  rw [h1]
  simp only [Option.bind_some]
  rw [h2]
  rfl

def exS : State exD := fun r => if r = exR then [{ exP with x := ![19/10, 19/10, 1/2], pos := 1 }] else []

example : AtHome exD exS := by
  intro r g hg
  unfold exS at hg
  split_ifs at hg with h
  · rw [List.mem_singleton] at hg
    subst hg h
    refine ⟨rfl, ?_, by simp [exP], by simp [exP], by simp [exP]⟩
    intro d
    fin_cases d <;> norm_num [v2, exD, exR, exP] <;> simp [Fin.last] <;> norm_num
  · simp at hg

example : Motion exD (fun g => { g with x := ![21/10, 21/10, 1/2] }) exS := by
  intro r g hg
  unfold exS at hg
  split_ifs at hg with h
  · rw [List.mem_singleton] at hg
    subst hg h
    refine ⟨?_, rfl, rfl, rfl, rfl⟩
    intro d
    fin_cases d <;> norm_num [v2, Reach1, exD, exR, exP] <;> simp [Fin.last]
  · simp at hg

/-! ## Where the code fails -/

/-- One Grid with the given boundary conditions at x3, periodic in x1 and x2; the Domain starts at `a` in x3. -/
def exOne (a : ℝ) (l r : BC) : Dom := ![⟨0, fun g => g, true, 1/4, 4, .periodic, .periodic⟩,
  ⟨0, fun g => g, true, 1/4, 4, .periodic, .periodic⟩, ⟨0, fun g => a + g, true, 1/4, 4, l, r⟩]

def exAt (z : ℝ) (pos : ℤ) : Grain := ⟨![1/2, 1/2, z], ![0, 0, 1], 0, pos, 7, 0⟩

theorem pass_single {D : Dom} {d : Fin 3} (hn : (D d).n = 0) (ha : (D d).act = true) (S : State D) (r : Rank D) :
    pass D d S r = (S r ++ applyIx D d r (S r)) ++ applyOx D d r (S r ++ applyIx D d r (S r)) := by
  have hz : ∀ a b : Fin ((D d).n + 1), a = b := by
    intro a b; apply Fin.ext; have := a.2; have := b.2; omega
  unfold pass
  rw [if_pos ha, if_pos (show noLeft D d r from ⟨hz _ _, Or.inr hn⟩),
    if_pos (show noRight D d r from ⟨hz _ _, Or.inr hn⟩)]

theorem apply_quiet {D : Dom} {d : Fin 3} {r : Rank D} {l : List Grain}
    (h : ∀ g ∈ l, packIx1 D d r g = none ∧ packOx1 D d r g = none) :
    applyIx D d r l = [] ∧ applyOx D d r l = [] := by
  have h1 := filterMap_nil_of (packIx1 D d r) l fun g hg => (h g hg).1
  have h2 := filterMap_nil_of (packOx1 D d r) l fun g hg => (h g hg).2
  constructor
  · unfold applyIx; cases (D d).left <;> simp [h1, h2]
  · unfold applyOx; cases (D d).right <;> simp [h1, h2]

theorem pass_quiet {D : Dom} {d : Fin 3} (hn : (D d).n = 0) (ha : (D d).act = true) (S : State D) (r : Rank D)
    (h : ∀ g ∈ S r, packIx1 D d r g = none ∧ packOx1 D d r g = none) : pass D d S r = S r := by
  have h1 := apply_quiet h
  rw [pass_single hn ha, h1.1, List.append_nil, h1.2, List.append_nil]

theorem exOne_quiet (a : ℝ) (l r : BC) (d : Fin 3) (hd : d ≠ 2) (S : State (exOne a l r)) (q : Rank (exOne a l r))
    (h : ∀ g ∈ S q, g.x d = 1/2) : pass (exOne a l r) d S q = S q := by
  have hn : (exOne a l r d).n = 0 := by fin_cases d <;> rfl
  have hq : (q d).val = 0 := by have := (q d).2; omega
  apply pass_quiet hn
  · fin_cases d <;> rfl
  · intro g hg
    have hx := h g hg
    constructor
    · apply packIx1_none
      unfold lower
      rw [hx, hq]
      fin_cases d
      · norm_num [exOne]
      · norm_num [exOne]
      · exact absurd rfl hd
    · apply packOx1_none
      unfold upper
      rw [hx, hq]
      fin_cases d
      · norm_num [exOne]
      · norm_num [exOne]
      · exact absurd rfl hd

/-- `bvals` of one particle at the middle of x1 and x2. -/
theorem exOne_bvals (a : ℝ) (l r : BC) (z : ℝ) (p : ℤ) (q : Rank (exOne a l r)) :
    bvals (exOne a l r) (fun _ => [exAt z p]) q =
      ((([exAt z p] ++ applyIx (exOne a l r) 2 q [exAt z p]) ++ applyOx (exOne a l r) 2 q
        ([exAt z p] ++ applyIx (exOne a l r) 2 q [exAt z p])).map (status (exOne a l r) q)).filter
          (fun g => g.pos ≠ 0) := by
  have h0 : pass (exOne a l r) 0 (fun _ => [exAt z p]) = fun _ => [exAt z p] := by
    funext q
    apply exOne_quiet a l r 0 (by decide)
    intro g hg
    rw [List.mem_singleton] at hg
    subst hg
    rfl
  have h1 : pass (exOne a l r) 1 (fun _ => [exAt z p]) = fun _ => [exAt z p] := by
    funext q
    apply exOne_quiet a l r 1 (by decide)
    intro g hg
    rw [List.mem_singleton] at hg
    subst hg
    rfl
  unfold bvals
  rw [h0, h1, pass_single rfl rfl]

theorem exOne_bounds (a : ℝ) (l r : BC) (q : Rank (exOne a l r)) :
    lower (exOne a l r) 2 q = a ∧ upper (exOne a l r) 2 q = a + 1 := by
  have hq : (q 2).val = 0 := by have := (q 2).2; exact Nat.lt_one_iff.mp this
  unfold lower upper
  rw [hq]
  constructor <;> norm_num [v2, exOne]

theorem status_gone {D : Dom} {r : Rank D} {g : Grain} (hp : 10 ≤ g.pos)
    (h : upar D 2 r ≤ g.x 2 ∨ g.x 2 < lpar D 2 r) : (status D r g).pos = 0 := by
  unfold status
  rw [if_pos hp, if_pos (show Outside D r g from ⟨2, h⟩)]

/-- C84, counterexample: a particle that lands exactly on the outer wall of a reflecting Domain is lost. -/
theorem wall_lost_false (q : Rank (exOne 0 .reflect .reflect)) :
    bvals (exOne 0 .reflect .reflect) (fun _ => [exAt 1 10]) q = [] := by
  have hb := exOne_bounds 0 .reflect .reflect q
  have hl : lpar (exOne 0 .reflect .reflect) 2 q = 0 := by
    unfold lpar
    rw [if_neg (by simp [v2, exOne]), hb.1]
  have hu : upar (exOne 0 .reflect .reflect) 2 q = 1 := by
    unfold upar
    simp only
    rw [if_pos (show (exOne _ _ _ 2).act = true from rfl), if_neg (by simp [v2, exOne]), hb.2]
    norm_num
  have h1 : packIx1 (exOne 0 .reflect .reflect) 2 q (exAt 1 10) = none :=
    packIx1_none (by rw [hb.1]; simp [v2, exAt])
  have h2 : packOx1 (exOne 0 .reflect .reflect) 2 q (exAt 1 10) = some (packed (exAt 1 10) (outLabel 2)) :=
    packOx1_some (by rw [hb.2]; simp [v2, exAt]) (by simp [v2, exAt]) (by simp [v2, exAt, inLabel])
  have e1 : applyIx (exOne 0 .reflect .reflect) 2 q [exAt 1 10] = [] := by
    show (List.filterMap _ [_]).map _ = _
    rw [List.filterMap_cons, h1]
    rfl
  have e2 : applyOx (exOne 0 .reflect .reflect) 2 q [exAt 1 10]
      = [reflOx (exOne 0 .reflect .reflect) 2 q (packed (exAt 1 10) (outLabel 2))] := by
    show (List.filterMap _ [_]).map _ = _
    rw [List.filterMap_cons, h2]
    rfl
  have s1 := status_gone (D := exOne 0 .reflect .reflect) (r := q) (g := exAt 1 10) (by simp [v2, exAt])
    (Or.inl (by rw [hu]; simp [v2, exAt]))
  have s2 := status_gone (D := exOne 0 .reflect .reflect) (r := q)
    (g := reflOx (exOne 0 .reflect .reflect) 2 q (packed (exAt 1 10) (outLabel 2)))
    (by show 10 ≤ (packed (exAt 1 10) (outLabel 2)).pos
        rw [packed_pos (outLabel_nonneg 2)]; simp [outLabel])
    (Or.inl (by rw [hu]; simp [v2, reflOx, hb.2, packed, exAt]; norm_num))
  rw [exOne_bvals, e1, List.append_nil, e2]
  simp [s1, s2]

/-- C84, counterexample: a particle that leaves a Domain that begins at x3 = -1 through the reflecting inner
boundary is not mirrored: it belongs at -3/4 but is found at 1/4, outside the Domain, and lost. -/
theorem reflect_x3_false (q : Rank (exOne (-1) .reflect .reflect)) :
    bvals (exOne (-1) .reflect .reflect) (fun _ => [exAt (-5/4) 10]) q = [] ∧
    (settle1 (exOne (-1) .reflect .reflect) 2 (exAt (-5/4) 10)).map (fun g => g.x 2) = some (-3/4) := by
  refine ⟨?_, ?_⟩
  swap
  · norm_num [v2, settle1, exOne, exAt]
  have hb := exOne_bounds (-1) .reflect .reflect q
  have hl : lpar (exOne (-1) .reflect .reflect) 2 q = -1 := by
    unfold lpar
    rw [if_neg (by simp [v2, exOne]), hb.1]
  have hu : upar (exOne (-1) .reflect .reflect) 2 q = 0 := by
    unfold upar
    simp only
    rw [if_pos (show (exOne _ _ _ 2).act = true from rfl), if_neg (by simp [v2, exOne]), hb.2]
    norm_num
  have h1 : packIx1 (exOne (-1) .reflect .reflect) 2 q (exAt (-5/4) 10)
      = some (packed (exAt (-5/4) 10) (inLabel 2)) :=
    packIx1_some (by rw [hb.1]; norm_num [v2, exAt]) (by simp [v2, exAt]) (by simp [v2, exAt, outLabel])
  have h2 : packOx1 (exOne (-1) .reflect .reflect) 2 q (exAt (-5/4) 10) = none :=
    packOx1_none (by rw [hb.2]; norm_num [v2, exAt])
  have h3 : packOx1 (exOne (-1) .reflect .reflect) 2 q
      (reflIx (exOne (-1) .reflect .reflect) 2 q (packed (exAt (-5/4) 10) (inLabel 2))) = none :=
    packOx1_of_in (show (packed (exAt (-5/4) 10) (inLabel 2)).pos = _ from packed_pos (inLabel_nonneg 2))
  have e1 : applyIx (exOne (-1) .reflect .reflect) 2 q [exAt (-5/4) 10]
      = [reflIx (exOne (-1) .reflect .reflect) 2 q (packed (exAt (-5/4) 10) (inLabel 2))] := by
    show (List.filterMap _ [_]).map _ = _
    rw [List.filterMap_cons, h1]
    rfl
  have e2 : applyOx (exOne (-1) .reflect .reflect) 2 q ([exAt (-5/4) 10] ++
      [reflIx (exOne (-1) .reflect .reflect) 2 q (packed (exAt (-5/4) 10) (inLabel 2))]) = [] := by
    show (List.filterMap _ [_, _]).map _ = _
    rw [List.filterMap_cons, h2, List.filterMap_cons, h3]
    rfl
  have s1 := status_gone (D := exOne (-1) .reflect .reflect) (r := q) (g := exAt (-5/4) 10) (by simp [v2, exAt])
    (Or.inr (by rw [hl]; norm_num [v2, exAt]))
  have s2 := status_gone (D := exOne (-1) .reflect .reflect) (r := q)
    (g := reflIx (exOne (-1) .reflect .reflect) 2 q (packed (exAt (-5/4) 10) (inLabel 2)))
    (by show 10 ≤ (packed (exAt (-5/4) 10) (inLabel 2)).pos
        rw [packed_pos (inLabel_nonneg 2)]; simp [inLabel])
    (Or.inl (by rw [hu]; simp [v2, reflIx, hb.1, packed, exAt]; norm_num))
  rw [exOne_bvals, e1, e2, List.append_nil]
  simp [s1, s2]

/-- C84, counterexample: with an outflow inner x3 boundary particles that stay inside the Domain, within
`nghost - 1` zones of that boundary, are removed. -/
theorem outflow_x3_false (q : Rank (exOne 0 .outflow .outflow)) :
    step (exOne 0 .outflow .outflow) id (fun _ => [exAt (1/2) 1]) q = [] ∧
    settle1 (exOne 0 .outflow .outflow) 2 (exAt (1/2) 1) = some (exAt (1/2) 1) := by
  refine ⟨?_, ?_⟩
  swap
  · norm_num [v2, settle1, exOne, exAt]
  have hb := exOne_bounds 0 .outflow .outflow
  have hl : ∀ q, lpar (exOne 0 .outflow .outflow) 2 q = 3/4 := by
    intro q
    unfold lpar
    have hz : q 2 = 0 := Fin.ext (Nat.lt_one_iff.mp (q 2).2)
    rw [if_pos ⟨rfl, hz⟩]
    norm_num [v2, exOne]
  have hj : (fun r => [exAt (1/2) 1].map (fun g => judge (exOne 0 .outflow .outflow) r (id g)))
      = fun _ => [exAt (1/2) 10] := by
    funext r
    show [judge _ r (exAt (1/2) 1)] = _
    unfold judge
    rw [if_pos (show Outside (exOne 0 .outflow .outflow) r (exAt (1/2) 1) from
      ⟨2, Or.inr (by rw [hl]; norm_num [v2, exAt])⟩)]
    rfl
  unfold step
  rw [hj]
  have s1 := status_gone (D := exOne 0 .outflow .outflow) (r := q) (g := exAt (1/2) 10) (by simp [v2, exAt])
    (Or.inr (by rw [hl]; norm_num [v2, exAt]))
  rw [exOne_bvals]
  have e1 : ∀ l, applyIx (exOne 0 .outflow .outflow) 2 q l = [] := fun l => rfl
  have e2 : ∀ l, applyOx (exOne 0 .outflow .outflow) 2 q l = [] := fun l => rfl
  rw [e1, e2]
  show List.filter _ [status _ q (exAt (1/2) 10)] = []
  rw [List.filter_cons, if_neg (by rw [s1]; simp)]
  rfl

end
end Athena.Part
