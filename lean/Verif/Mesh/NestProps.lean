import Verif.Mesh.Nest
import Mathlib.Tactic.Linarith
import Mathlib.Tactic.IntervalCases
import Mathlib.Tactic.FinCases
import Mathlib.Tactic.Ring
import Mathlib.Data.Fintype.Basic
import Mathlib.Data.Fin.VecNotation

/-!
# Properties C15, C16 (src/init_mesh.c, Steps 3-5)
-/

namespace Athena.Mesh

/-! ## Specification -/

/-- Vertex `v` (corner of cells, in units of the Domain's own cells) lies in the closed box of `d`.
Two boxes share a cell, a face, an edge or a corner exactly when they share a vertex. -/
def Dom.HasVertex (d : Dom) (v : Fin 3 → Int) : Prop := ∀ i, d.disp i ≤ v i ∧ v i ≤ d.disp i + d.nx i

/-- The two Domains share a cell, face, edge or corner. -/
def Dom.Meets (d e : Dom) : Prop := ∃ v, d.HasVertex v ∧ e.HasVertex v

/-- In direction `i` the child `c` (one level finer than `p`) lies in `p`, and leaves at least
`ng` child cells (`ng/2` parent cells) between its boundary and the parent's on every side on which
it is not at the edge of the root Domain (`rootFine` child cells wide). -/
def NestedIn (ng rootFine : Int) (p c : Dom) (i : Fin 3) : Prop :=
  2 * p.disp i ≤ c.disp i ∧ c.disp i + c.nx i ≤ 2 * (p.disp i + p.nx i) ∧
  ((c.disp i = 0 ∧ p.disp i = 0) ∨ ng ≤ c.disp i - 2 * p.disp i) ∧
  ((c.disp i + c.nx i = 2 * (p.disp i + p.nx i) ∧ c.disp i + c.nx i = rootFine) ∨
    ng ≤ 2 * (p.disp i + p.nx i) - (c.disp i + c.nx i))

/-- Child `c` and parent `p` share a vertex, in units of the child's cells, directions `i < nDim`. -/
def MeetsFine (nDim : Nat) (p c : Dom) : Prop :=
  ∀ i : Fin 3, i.val < nDim →
    2 * p.disp i ≤ c.disp i + c.nx i ∧ c.disp i ≤ 2 * (p.disp i + p.nx i)

/-! ## Unfolding `initMesh` -/

theorem initMesh_ok {ng : Int} {bs : List Block} {ds : List Dom} (h : initMesh ng bs = .ok ds) :
    ∃ root, bs.find? (fun b => b.level = 0) = some root ∧ rootOK root.nx = true ∧
      makeDoms root.nx bs = .ok ds ∧ step4 ds (maxLevel bs) = true ∧
      step5 ng root.nx ds (maxLevel bs) = true := by
  unfold initMesh at h
  dsimp only at h
  split_ifs at h with h1 h2
  split at h
  · cases h
  · rename_i root hr
    split_ifs at h with h3
    split at h
    · cases h
    · cases h
    · rename_i ds' hm
      split_ifs at h with h4 h5
      simp only [Res.ok.injEq] at h
      subst h
      exact ⟨root, hr, by simpa using h3, hm, by simpa using h4, by simpa using h5⟩

theorem makeDom_ok {rootNx : Fin 3 → Int} {b : Block} {d : Dom} (h : makeDom rootNx b = .ok d) :
    0 ≤ b.level ∧ d.level = b.level.toNat ∧ d.nx = b.nx ∧
    d.disp = readDisp rootNx d.level b.disp ∧ nDims d.nx = nDims rootNx ∧ (∀ i, 1 ≤ d.nx i) ∧
    ¬ (nDims rootNx = 1 ∧ d.nx 0 = 1) ∧ ¬ (nDims rootNx = 2 ∧ d.nx 2 > 1) ∧
    (∀ i : Fin 3, i.val < nDims rootNx → irefine d.level ∣ d.nx i) ∧
    (∀ i : Fin 3, i.val < nDims rootNx → irefine d.level ∣ d.disp i) := by
  unfold makeDom at h
  dsimp only at h
  split_ifs at h with h1 h2 h3 h4 h5 h6 h7
  simp only [Res.ok.injEq] at h
  subst h
  refine ⟨not_lt.1 h1, rfl, rfl, rfl, not_not.1 h2, ?_, h4, h5, ?_, ?_⟩
  · exact h3
  · intro i hi; exact Int.dvd_of_tmod_eq_zero (h6 i hi)
  · intro i hi; exact Int.dvd_of_tmod_eq_zero (h7 i hi)

theorem makeDoms_mem {rootNx : Fin 3 → Int} : ∀ {bs : List Block} {ds : List Dom},
    makeDoms rootNx bs = .ok ds → ∀ d ∈ ds, ∃ b ∈ bs, makeDom rootNx b = .ok d := by
  intro bs
  induction bs with
  | nil => intro ds h d hd; simp only [makeDoms, Res.ok.injEq] at h; subst h; cases hd
  | cons b bs ih =>
    intro ds h d hd
    simp only [makeDoms] at h
    cases hb : makeDom rootNx b with
    | fatal => rw [hb] at h; cases h
    | ub => rw [hb] at h; cases h
    | ok d' =>
      rw [hb] at h
      cases hr : makeDoms rootNx bs with
      | fatal => rw [hr] at h; cases h
      | ub => rw [hr] at h; cases h
      | ok ds' =>
        rw [hr] at h
        simp only [Res.ok.injEq] at h
        subst h
        rcases List.mem_cons.1 hd with rfl | hd
        · exact ⟨b, by simp, hb⟩
        · obtain ⟨b', hb', e⟩ := ih hr d hd
          exact ⟨b', by simp [hb'], e⟩

theorem le_maxLevel : ∀ {bs : List Block} {b : Block}, b ∈ bs → b.level.toNat ≤ maxLevel bs := by
  intro bs
  induction bs with
  | nil => intro b h; cases h
  | cons a bs ih =>
    intro b h
    simp only [maxLevel]
    rcases List.mem_cons.1 h with rfl | h
    · exact le_max_left _ _
    · exact le_trans (ih h) (le_max_right _ _)

theorem level_le_max {ng : Int} {bs : List Block} {ds : List Dom} (h : initMesh ng bs = .ok ds)
    {d : Dom} (hd : d ∈ ds) : d.level ≤ maxLevel bs := by
  obtain ⟨root, _, _, hm, _⟩ := initMesh_ok h
  obtain ⟨b, hb, e⟩ := makeDoms_mem hm d hd
  rw [(makeDom_ok e).2.1]; exact le_maxLevel hb

theorem irefine_eq (n : Nat) : irefine n = 2 ^ n := by
  induction n with
  | zero => rfl
  | succ n ih => rw [irefine, ih, pow_succ]

theorem irefine_pos (n : Nat) : 0 < irefine n := by
  rw [irefine_eq]; exact pow_pos (by norm_num) n

/-! ## C15 -/

theorem touching_of_meets {d e : Dom} (h : d.Meets e) : touching d.side e.side = true := by
  obtain ⟨v, h1, h2⟩ := h
  unfold touching; rw [decide_eq_true_iff]
  intro i
  have a := h1 i; have b := h2 i
  simp only [Dom.side]
  constructor <;> linarith

theorem meets_of_touching {d e : Dom} (hd : ∀ i, 0 ≤ d.nx i) (he : ∀ i, 0 ≤ e.nx i)
    (h : touching d.side e.side = true) : d.Meets e := by
  unfold touching at h; rw [decide_eq_true_iff] at h
  simp only [Dom.side] at h
  refine ⟨fun i => max (d.disp i) (e.disp i), fun i => ?_, fun i => ?_⟩
  · have := h i; have := hd i; have := he i
    exact ⟨le_max_left _ _, max_le (by linarith) (by linarith)⟩
  · have := h i; have := hd i; have := he i
    exact ⟨le_max_right _ _, max_le (by linarith) (by linarith)⟩

theorem touchesAny_false {d : Dom} : ∀ {es : List Dom}, touchesAny d es = false →
    ∀ e ∈ es, touching d.side e.side = false := by
  intro es
  induction es with
  | nil => intro _ e he; cases he
  | cons a es ih =>
    intro h e he
    simp only [touchesAny, Bool.or_eq_false_iff] at h
    rcases List.mem_cons.1 he with rfl | he
    · exact h.1
    · exact ih h.2 e he

theorem step4Level_pairwise : ∀ {ds : List Dom}, step4Level ds = true →
    ds.Pairwise (fun d e => touching d.side e.side = false) := by
  intro ds
  induction ds with
  | nil => intro _; exact List.Pairwise.nil
  | cons d ds ih =>
    intro h
    simp only [step4Level, Bool.and_eq_true, Bool.not_eq_true'] at h
    exact List.Pairwise.cons (touchesAny_false h.1) (ih h.2)

theorem step4_level {ds : List Dom} : ∀ {m nl : Nat}, step4 ds m = true → 1 ≤ nl → nl ≤ m →
    step4Level (onLevel ds nl) = true := by
  intro m
  induction m with
  | zero => intro nl _ h1 h2; omega
  | succ n ih =>
    intro nl h h1 h2
    simp only [step4, Bool.and_eq_true] at h
    by_cases hn : nl = n+1
    · subst hn; exact h.1
    · exact ih h.2 h1 (by omega)

/-- **C15.** In an accepted mesh, any two Domains of the same refined level (at different places of
the level's list) share no cell, face, edge or corner. -/
theorem same_level_apart (ng : Int) (bs : List Block) (ds : List Dom) (h : initMesh ng bs = .ok ds)
    (nl : Nat) (hnl : 1 ≤ nl) :
    (onLevel ds nl).Pairwise (fun d e => ¬ d.Meets e) := by
  obtain ⟨root, _, _, hm, h4, _⟩ := initMesh_ok h
  by_cases hle : nl ≤ maxLevel bs
  · refine (step4Level_pairwise (step4_level h4 hnl hle)).imp ?_
    intro d e hde hmeet
    rw [touching_of_meets hmeet] at hde; cases hde
  · have : onLevel ds nl = [] := by
      simp only [onLevel, List.filter_eq_nil_iff, decide_eq_true_eq]
      intro d hd hc
      have := level_le_max h hd
      omega
    rw [this]; exact List.Pairwise.nil

/-- Level 0 needs no test: an accepted mesh has exactly one Domain there. -/
theorem root_unique (ng : Int) (bs : List Block) (ds : List Dom) (h : initMesh ng bs = .ok ds) :
    ∃ d, onLevel ds 0 = [d] ∧ ∀ i, d.disp i = 0 := by
  have hc : countLevel bs 0 = 1 := by
    unfold initMesh at h; dsimp only at h
    split_ifs at h with h1 h2
    exact not_not.1 h2
  obtain ⟨root, _, _, hm, _, _⟩ := initMesh_ok h
  have key : ∀ (bs : List Block) (ds : List Dom), makeDoms root.nx bs = .ok ds →
      (onLevel ds 0).length = (bs.filter (fun b => b.level = (0:Int))).length := by
    intro bs
    induction bs with
    | nil => intro ds h; simp only [makeDoms, Res.ok.injEq] at h; subst h; rfl
    | cons b bs ih =>
      intro ds h
      simp only [makeDoms] at h
      cases hb : makeDom root.nx b with
      | fatal => rw [hb] at h; cases h
      | ub => rw [hb] at h; cases h
      | ok d' =>
        rw [hb] at h
        cases hr : makeDoms root.nx bs with
        | fatal => rw [hr] at h; cases h
        | ub => rw [hr] at h; cases h
        | ok ds' =>
          rw [hr] at h
          simp only [Res.ok.injEq] at h
          subst h
          have hk := makeDom_ok hb
          have hiff : (d'.level = 0) ↔ (b.level = 0) := by rw [hk.2.1]; omega
          simp only [onLevel, List.filter_cons] at ih ⊢
          by_cases hz : b.level = 0
          · simp only [hiff.2 hz, hz, decide_true, if_true, List.length_cons]
            rw [ih _ hr]
          · have hz' : d'.level ≠ 0 := fun h => hz (hiff.1 h)
            simp only [hz, hz', decide_false, Bool.false_eq_true, if_false]
            exact ih _ hr
  have hlen : (onLevel ds 0).length = 1 := by
    rw [key bs ds hm]; simpa [countLevel] using hc
  obtain ⟨d, hd⟩ := List.length_eq_one_iff.1 hlen
  refine ⟨d, hd, fun i => ?_⟩
  have hmem : d ∈ onLevel ds 0 := by rw [hd]; simp
  simp only [onLevel, List.mem_filter, decide_eq_true_eq] at hmem
  obtain ⟨b, _, e⟩ := makeDoms_mem hm d hmem.1
  rw [(makeDom_ok e).2.2.2.1, hmem.2]
  simp [readDisp]

/-! ## C16 -/

theorem step5_pair {ng : Int} {rootNx : Fin 3 → Int} {ds : List Dom} : ∀ {m nl : Nat},
    step5 ng rootNx ds m = true → nl < m → ∀ p ∈ onLevel ds nl, ∀ c ∈ onLevel ds (nl+1),
    pairOK ng rootNx nl p c = true := by
  intro m
  induction m with
  | zero => intro nl _ h; omega
  | succ n ih =>
    intro nl h hlt p hp c hc
    simp only [step5, Bool.and_eq_true, List.all_eq_true] at h
    by_cases hn : nl = n
    · subst hn; exact h.2 p hp c hc
    · exact ih h.1 (by omega) p hp c hc

theorem nDims_le (nx : Fin 3 → Int) : nDims nx ≤ 3 := by
  unfold nDims; split_ifs <;> omega

/-- In an accepted Domain the directions with more than one cell are exactly those below `nDim`. -/
theorem used_iff {nx : Fin 3 → Int} {nDim : Nat} (hd : nDims nx = nDim) (h1 : ∀ i, 1 ≤ nx i)
    (hN : nDim ≠ 0)
    (h2 : ¬ (nDim = 1 ∧ nx 0 = 1)) (h3 : ¬ (nDim = 2 ∧ nx 2 > 1)) (i : Fin 3) :
    nx i > 1 ↔ i.val < nDim := by
  have e0 := h1 0; have e1 := h1 1; have e2 := h1 2
  unfold nDims at hd
  fin_cases i <;> simp only [Fin.zero_eta, Fin.mk_one, Fin.reduceFinMk, Fin.val_zero, Fin.val_one, Fin.val_two] <;>
    split_ifs at hd <;> omega

theorem rootOK_spec {nx : Fin 3 → Int} (h : rootOK nx = true) :
    nDims nx ≠ 0 ∧ (∀ i, 1 ≤ nx i) ∧ ¬ (nDims nx = 1 ∧ nx 0 = 1) ∧ ¬ (nDims nx = 2 ∧ nx 2 > 1) := by
  simpa only [rootOK, decide_eq_true_eq] using h

/-- Facts about a Domain of an accepted mesh. -/
theorem dom_facts {ng : Int} {bs : List Block} {ds : List Dom} (h : initMesh ng bs = .ok ds)
    {root : Block} (hroot : bs.find? (fun b => b.level = 0) = some root) {d : Dom} (hd : d ∈ ds) :
    (∀ i, d.nx i > 1 ↔ i.val < nDims root.nx) ∧ (∀ i, 1 ≤ d.nx i) ∧
    (∀ i : Fin 3, i.val < nDims root.nx → irefine d.level ∣ d.nx i ∧ irefine d.level ∣ d.disp i) ∧
    (∀ i : Fin 3, ¬ i.val < nDims root.nx → d.nx i = 1 ∧ d.disp i = 0) := by
  obtain ⟨root', hr', hok, hm, _, _⟩ := initMesh_ok h
  rw [hroot] at hr'; cases hr'
  obtain ⟨r0, r1, r2, r3⟩ := rootOK_spec hok
  obtain ⟨b, _, e⟩ := makeDoms_mem hm d hd
  obtain ⟨k1, k2, k3, k4, k5, k6, k7, k8, k9, k10⟩ := makeDom_ok e
  have hu := used_iff k5 k6 r0 k7 k8
  have hur := used_iff rfl r1 r0 r2 r3
  refine ⟨hu, k6, fun i hi => ⟨k9 i hi, k10 i hi⟩, fun i hi => ⟨?_, ?_⟩⟩
  · have := (not_congr (hu i)).2 hi; have := k6 i; omega
  · rw [k4]
    unfold readDisp
    split_ifs with h1 h2 h3
    · rfl
    · subst h2; exfalso; exact hi (by simp only [Fin.val_zero]; omega)
    · exact absurd ((hur i).1 h3) hi
    · rfl

/-- **C16**, the part that holds: in an accepted mesh, whenever a Domain meets (shares at least a
corner with) a Domain one level coarser, it is properly nested in it: contained, and at least
`nghost` of its own cells away from the parent's boundary except at the edges of the root Domain.
(Missing: that there is such a coarser Domain at all, see `nesting_false`.) -/
theorem nesting_partial (ng : Int) (bs : List Block) (ds : List Dom)
    (h : initMesh ng bs = .ok ds) (root : Block) (hroot : bs.find? (fun b => b.level = 0) = some root)
    (nl : Nat) (p c : Dom) (hp : p ∈ onLevel ds nl) (hc : c ∈ onLevel ds (nl+1))
    (hmeet : MeetsFine (nDims root.nx) p c) :
    ∀ i : Fin 3, i.val < nDims root.nx →
      NestedIn ng (2 ^ (nl+1) * root.nx i) p c i := by
  obtain ⟨root', hr', hok, hm, _, h5⟩ := initMesh_ok h
  rw [hroot] at hr'; cases hr'
  have hp' := hp; have hc' := hc
  simp only [onLevel, List.mem_filter, decide_eq_true_eq] at hp' hc'
  obtain ⟨p1, p2, p3, p4⟩ := dom_facts h hroot hp'.1
  obtain ⟨c1, c2, c3, c4⟩ := dom_facts h hroot hc'.1
  have hlt : nl < maxLevel bs := by
    have := level_le_max h hc'.1; omega
  have hpair := step5_pair h5 hlt p hp c hc
  -- child sides in fine units
  have half : ∀ i : Fin 3, i.val < nDims root.nx →
      2 * (c.disp i).tdiv 2 = c.disp i ∧ 2 * (c.disp i + c.nx i).tdiv 2 = c.disp i + c.nx i ∧
      ∃ a, c.disp i + c.nx i = (2 * irefine nl) * a := by
    intro i hi
    obtain ⟨⟨a, ha⟩, ⟨b, hb⟩⟩ := c3 i hi
    rw [hc'.2, irefine] at ha hb
    refine ⟨?_, ?_, b + a, by rw [ha, hb]; ring⟩
    · have : (2:Int) ∣ c.disp i := ⟨irefine nl * b, by rw [hb]; ring⟩
      exact Int.mul_tdiv_cancel' this
    · have : (2:Int) ∣ c.disp i + c.nx i := ⟨irefine nl * b + irefine nl * a, by rw [ha, hb]; ring⟩
      exact Int.mul_tdiv_cancel' this
  have htouch : touching p.side (childSide c) = true := by
    unfold touching; rw [decide_eq_true_iff]
    intro i
    by_cases hi : i.val < nDims root.nx
    · have := hmeet i hi
      obtain ⟨e1, e2, _⟩ := half i hi
      simp only [Dom.side, childSide]
      rw [if_pos ((c1 i).2 hi)]
      constructor <;> linarith
    · obtain ⟨e1, e2⟩ := c4 i hi
      obtain ⟨f1, f2⟩ := p4 i hi
      simp only [Dom.side, childSide, e1, e2, f1, f2]
      decide
  unfold pairOK at hpair
  rw [if_pos htouch] at hpair
  simp only [decide_eq_true_eq] at hpair
  intro i hi
  have hd := hpair i hi
  obtain ⟨e1, e2, a, ha⟩ := half i hi
  unfold dimOK at hd
  dsimp only at hd
  rw [decide_eq_true_iff] at hd
  simp only [Dom.side, childSide] at hd
  rw [if_pos ((c1 i).2 hi)] at hd
  have hroff : (c.disp i + c.nx i).tdiv (2 * irefine nl) = a := by
    rw [ha]; exact Int.mul_tdiv_cancel_left _ (by have := irefine_pos nl; omega)
  rw [hroff] at hd
  have hpow : (2:Int) ^ (nl+1) = 2 * irefine nl := by rw [irefine_eq, pow_succ]; ring
  obtain ⟨d1, d2, d3⟩ := hd
  push Not at d1 d2 d3
  unfold NestedIn
  rw [hpow]
  refine ⟨by linarith [d2.1], by linarith [d2.2], ?_, ?_⟩
  · by_cases heq : (c.disp i).tdiv 2 = p.disp i
    · have := d1.1 heq
      left; constructor <;> omega
    · right
      have hlt2 : ¬ (2 * ((c.disp i).tdiv 2 - p.disp i) < ng) := by
        intro hcon; have := d3.1 hcon; omega
      omega
  · by_cases heq : (c.disp i + c.nx i).tdiv 2 = p.disp i + p.nx i
    · have := d1.2 heq
      left
      refine ⟨by omega, ?_⟩
      rw [ha]; congr 1; omega
    · right
      have hlt2 : ¬ (2 * (p.disp i + p.nx i - (c.disp i + c.nx i).tdiv 2) < ng) := by
        intro hcon; have := d3.2 hcon; omega
      omega

/-- A refined Domain meets at most one Domain of the next coarser level, at any two list positions:
if it met two parents it would lie in both, but same-level Domains are apart. -/
theorem parent_unique (ng : Int) (bs : List Block) (ds : List Dom)
    (h : initMesh ng bs = .ok ds) (root : Block) (hroot : bs.find? (fun b => b.level = 0) = some root)
    (nl : Nat) (c : Dom) (hc : c ∈ onLevel ds (nl+1)) :
    (onLevel ds nl).Pairwise (fun p q =>
      ¬ (MeetsFine (nDims root.nx) p c ∧ MeetsFine (nDims root.nx) q c)) := by
  by_cases hnl : nl = 0
  · subst hnl
    obtain ⟨d, hd, _⟩ := root_unique ng bs ds h
    rw [hd]; exact List.pairwise_singleton _ _
  · have hpw := same_level_apart ng bs ds h nl (by omega)
    refine hpw.imp_of_mem ?_
    intro p q hp hq hapart hboth
    apply hapart
    have np := nesting_partial ng bs ds h root hroot nl p c hp hc hboth.1
    have nq := nesting_partial ng bs ds h root hroot nl q c hq hc hboth.2
    have hc' := hc; have hp' := hp; have hq' := hq
    simp only [onLevel, List.mem_filter, decide_eq_true_eq] at hc' hp' hq'
    obtain ⟨c1, c2, c3, c4⟩ := dom_facts h hroot hc'.1
    obtain ⟨p1, p2, p3, p4⟩ := dom_facts h hroot hp'.1
    obtain ⟨q1, q2, q3, q4⟩ := dom_facts h hroot hq'.1
    refine meets_of_touching (fun i => by have := p2 i; omega) (fun i => by have := q2 i; omega) ?_
    unfold touching; rw [decide_eq_true_iff]
    intro i
    simp only [Dom.side]
    by_cases hi : i.val < nDims root.nx
    · have a := np i hi; have b := nq i hi; have := c2 i
      unfold NestedIn at a b
      constructor <;> omega
    · obtain ⟨f1, f2⟩ := p4 i hi
      obtain ⟨g1, g2⟩ := q4 i hi
      rw [f1, f2, g1, g2]; decide

/-! Concrete meshes. -/

/-- A 1D root Domain of 16 cells with refined Domains `[8,16)` and `[20,28)` on level 1. -/
def meshA : List Block :=
  [ ⟨0, ![16,1,1], ![0,0,0]⟩, ⟨1, ![8,1,1], ![8,0,0]⟩, ⟨1, ![8,1,1], ![20,0,0]⟩ ]

/-- Non-vacuity of C15 and C16: the mesh is accepted, has two Domains on level 1, and they meet the
root Domain. -/
example : ∃ ds, initMesh 4 meshA = .ok ds ∧ (onLevel ds 1).length = 2 ∧
    ∀ c ∈ onLevel ds 1, ∀ p ∈ onLevel ds 0, MeetsFine 1 p c := by
  refine ⟨[⟨0, ![16,1,1], readDisp ![16,1,1] 0 ![0,0,0]⟩,
    ⟨1, ![8,1,1], readDisp ![16,1,1] 1 ![8,0,0]⟩,
    ⟨1, ![8,1,1], readDisp ![16,1,1] 1 ![20,0,0]⟩], by rfl, by simp [onLevel], ?_⟩
  intro c hc p hp i hi
  have : i = 0 := by omega
  subst this
  simp only [onLevel, List.filter_cons, List.filter_nil] at hc hp
  simp at hc hp
  subst hp
  rcases hc with rfl | rfl <;> simp [readDisp]

/-- A root Domain of 8 cells and a "refined Domain" starting at cell 16 of its level, that is beyond the
end of the root Domain. -/
def meshB : List Block := [ ⟨0, ![8,1,1], ![0,0,0]⟩, ⟨1, ![8,1,1], ![32,0,0]⟩ ]

/-- **C16 is false in general**: a refined Domain away from every coarser Domain is accepted,
because the nesting tests are applied only to pairs that touch (src/init_mesh.c:416-418). -/
theorem nesting_false : ∃ bs ds, initMesh 4 bs = .ok ds ∧
    ∃ c ∈ onLevel ds 1, ∀ p ∈ onLevel ds 0, ¬ (2 * p.disp 0 ≤ c.disp 0 ∧
      c.disp 0 + c.nx 0 ≤ 2 * (p.disp 0 + p.nx 0)) := by
  refine ⟨meshB, [⟨0, ![8,1,1], readDisp ![8,1,1] 0 ![0,0,0]⟩,
    ⟨1, ![8,1,1], readDisp ![8,1,1] 1 ![32,0,0]⟩], by rfl, ?_⟩
  refine ⟨⟨1, ![8,1,1], readDisp ![8,1,1] 1 ![32,0,0]⟩, by simp [onLevel], ?_⟩
  simp [onLevel, readDisp]

/-- A block with a negative level makes the set-up index an array out of bounds
(src/init_mesh.c:250-251): it is not diagnosed. -/
theorem negative_level_ub : initMesh 4 [⟨0, ![8,1,1], ![0,0,0]⟩, ⟨-1, ![8,1,1], ![0,0,0]⟩] = .ub := by
  rfl

end Athena.Mesh
