import Verif.Mesh.DecompLemmas
import Mathlib.Data.List.Count
import Mathlib.Algebra.BigOperators.Group.List.Basic
import Mathlib.Algebra.BigOperators.Intervals
import Mathlib.Data.List.Range
import Mathlib.Data.List.Nodup
import Mathlib.Tactic.IntervalCases
import Mathlib.Data.Int.ModEq

/-!
# Properties C12, C13, C14 (src/init_mesh.c): Grids tile Domains, automatic decomposition, ranks
-/

namespace Athena.Mesh

/-! ## C12 -/

/-- Specification: cell index `c` lies in the run of `n` cells starting at `d`. -/
def InRun (d n c : Nat) : Prop := d ≤ c ∧ c < d + n

/-- **C12.** In one direction: the cells of a Domain (displacement `disp`, `Nx` cells) are exactly
the cells of its `NG ≥ 1` Grids, and each of them lies in exactly one Grid. -/
theorem grids_tile (disp Nx NG c : Nat) (hNG : 1 ≤ NG) :
    (InRun disp Nx c → ∃! l, l < NG ∧ InRun (gridDisp disp Nx NG l) (gridNx Nx NG l) c) ∧
    (∀ l < NG, InRun (gridDisp disp Nx NG l) (gridNx Nx NG l) c → InRun disp Nx c) := by
  have htot := gridDisp_total disp Nx NG hNG
  constructor
  · rintro ⟨h1, h2⟩
    -- the last Grid starting at or below `c`
    have hex : ∃ n, n ≤ NG ∧ c < gridDisp disp Nx NG n := ⟨NG, le_rfl, by omega⟩
    obtain ⟨hm, hmin⟩ : (Nat.find hex ≤ NG ∧ c < gridDisp disp Nx NG (Nat.find hex)) ∧
        ∀ m < Nat.find hex, ¬ (m ≤ NG ∧ c < gridDisp disp Nx NG m) :=
      ⟨Nat.find_spec hex, fun m hm => Nat.find_min hex hm⟩
    generalize Nat.find hex = n at hm hmin
    cases n with
    | zero => simp only [gridDisp] at hm; omega
    | succ l =>
      refine ⟨l, ⟨by omega, ?_, ?_⟩, ?_⟩
      · have := hmin l (by omega); omega
      · have := hm.2; rw [gridDisp] at this; exact this
      · rintro l' ⟨hl', h3, h4⟩
        by_contra hne
        rcases Nat.lt_or_gt_of_ne hne with hlt | hgt
        · have := hmin (l'+1) (by omega)
          rw [gridDisp] at this; omega
        · have := gridDisp_mono disp Nx NG (show l+1 ≤ l' by omega)
          omega
  · rintro l hl ⟨h1, h2⟩
    constructor
    · have := gridDisp_mono disp Nx NG (Nat.zero_le l)
      rw [gridDisp] at this; omega
    · have := gridDisp_mono disp Nx NG (show l+1 ≤ NG by omega)
      rw [gridDisp] at this; omega

/-- **C12**, in three dimensions: every cell of the Domain box belongs to exactly one Grid
`(l,m,n)` of the `NG1×NG2×NG3` array. -/
theorem grids_tile_3d (d1 d2 d3 N1 N2 N3 G1 G2 G3 c1 c2 c3 : Nat)
    (h1 : 1 ≤ G1) (h2 : 1 ≤ G2) (h3 : 1 ≤ G3)
    (hc : InRun d1 N1 c1 ∧ InRun d2 N2 c2 ∧ InRun d3 N3 c3) :
    ∃! g : Nat × Nat × Nat, g.1 < G1 ∧ g.2.1 < G2 ∧ g.2.2 < G3 ∧
      InRun (gridDisp d1 N1 G1 g.1) (gridNx N1 G1 g.1) c1 ∧
      InRun (gridDisp d2 N2 G2 g.2.1) (gridNx N2 G2 g.2.1) c2 ∧
      InRun (gridDisp d3 N3 G3 g.2.2) (gridNx N3 G3 g.2.2) c3 := by
  obtain ⟨l, ⟨l1, l2⟩, l3⟩ := (grids_tile d1 N1 G1 c1 h1).1 hc.1
  obtain ⟨m, ⟨m1, m2⟩, m3⟩ := (grids_tile d2 N2 G2 c2 h2).1 hc.2.1
  obtain ⟨n, ⟨n1, n2⟩, n3⟩ := (grids_tile d3 N3 G3 c3 h3).1 hc.2.2
  refine ⟨(l, m, n), ⟨l1, m1, n1, l2, m2, n2⟩, ?_⟩
  rintro ⟨l', m', n'⟩ ⟨a, b, c, d, e, f⟩
  rw [l3 l' ⟨a, d⟩, m3 m' ⟨b, e⟩, n3 n' ⟨c, f⟩]

/-- **C12.** The Grid sizes sum to the Domain size, are non-increasing, differ by at most one,
are positive if there are not more Grids than cells, and each displacement is the Domain's
plus the sizes of the Grids before. -/
theorem grids_sizes (disp Nx NG : Nat) (hNG : 1 ≤ NG) :
    (∑ l ∈ Finset.range NG, gridNx Nx NG l = Nx) ∧
    (∀ l m, l ≤ m → gridNx Nx NG m ≤ gridNx Nx NG l ∧ gridNx Nx NG l ≤ gridNx Nx NG m + 1) ∧
    (NG ≤ Nx → ∀ l, 1 ≤ gridNx Nx NG l) ∧
    (∀ l, gridDisp disp Nx NG l = disp + ∑ m ∈ Finset.range l, gridNx Nx NG m) := by
  have hdisp : ∀ d l, gridDisp d Nx NG l = d + ∑ m ∈ Finset.range l, gridNx Nx NG m := by
    intro d l
    induction l with
    | zero => simp [gridDisp]
    | succ n ih => rw [gridDisp, ih, Finset.sum_range_succ]; omega
  refine ⟨?_, ?_, ?_, hdisp disp⟩
  · have h1 := hdisp 0 NG
    rw [gridDisp_total 0 Nx NG hNG] at h1; omega
  · intro l m hlm
    unfold gridNx; split_ifs <;> omega
  · intro h l
    have : 1 ≤ Nx / NG := (Nat.one_le_div_iff hNG).2 h
    unfold gridNx; omega

/-- Non-vacuity: 10 cells on 4 Grids are 3,3,2,2 cells; cell 7 of a Domain starting at 2. -/
example : (List.range 4).map (gridNx 10 4) = [3,3,2,2] ∧
    (List.range 4).map (gridDisp 2 10 4) = [2,5,8,10] ∧ InRun 2 10 7 := by
  refine ⟨by decide, by decide, ?_⟩; unfold InRun; omega

/-- Nothing rejects more Grids than cells (src/init_mesh.c:528-532 only looks at directions with
at most one cell), and then there are Grids without a cell. -/
theorem grids_may_be_empty : ∃ Nx NG l, 1 < Nx ∧ l < NG ∧ gridNx Nx NG l = 0 :=
  ⟨2, 3, 2, by decide, by decide, by decide⟩

/-! ## C13 -/

/-- Specification: a split of an `Nx×Ny×Nz` Domain into `rx×ry×rz = Np` Grids with at least one
cell per Grid in every direction. -/
structure Split (Nx Ny Nz Np rx ry rz : Nat) : Prop where
  x : 1 ≤ rx ∧ rx ≤ Nx
  y : 1 ≤ ry ∧ ry ≤ Ny
  z : 1 ≤ rz ∧ rz ≤ Nz
  count : rx * ry * rz = Np

/-- Specification: cells exchanged across the internal interfaces of a split, divided by `2*nghost`
(comment at src/init_mesh.c:884-892): `rx-1` interfaces of `Ny*Nz` cells, `ry-1` interfaces of
`(Nx + ghosts)*Nz` cells, `rz-1` interfaces of `(Nx + ghosts)*(Ny + ghosts)` cells. -/
def traffic (ng Nx Ny Nz rx ry rz : Nat) : Nat :=
  (rx - 1) * (Ny * Nz) + (ry - 1) * ((Nx + rx*(2*ng)) * Nz)
    + (rz - 1) * ((Nx + rx*(2*ng)) * (Ny + ry*(2*ng)))

theorem traffic_eq_cost3 (ng Nx Ny Nz rx ry rz : Nat) :
    traffic ng Nx Ny Nz rx ry rz = cost3 ng Nx Ny Nz rx ry rz := by
  unfold traffic cost3; ring

theorem traffic_eq_cost2 (ng Nx Ny rx ry : Nat) :
    traffic ng Nx Ny 1 rx ry 1 = cost2 ng Nx Ny rx ry := by
  unfold traffic cost2; simp only [Nat.sub_self]; ring

/-- A Domain `init_mesh` accepts: at least one direction has more than one cell, and the
directions with cells come first (1D, 2D or 3D). -/
def Shape (Nx Ny Nz : Nat) : Prop :=
  1 < Nx ∧ 1 ≤ Ny ∧ 1 ≤ Nz ∧ (1 < Nz → 1 < Ny)

/-- **C13**, validity: an accepted decomposition has exactly the requested number of Grids and
no empty Grid. -/
theorem domDecomp_valid (ng Nx Ny Nz Np rx ry rz : Nat) (hNp : 1 ≤ Np)
    (h : domDecomp ng Nx Ny Nz Np = some (rx, ry, rz)) : Split Nx Ny Nz Np rx ry rz := by
  unfold domDecomp at h
  split_ifs at h with h1 h2 h3 h4
  · simp only [Option.some.injEq, Prod.mk.injEq] at h
    obtain ⟨rfl, rfl, rfl⟩ := h
    exact ⟨⟨hNp, by omega⟩, ⟨le_rfl, by omega⟩, ⟨le_rfl, by omega⟩, by ring⟩
  · split at h
    · cases h
    · rename_i a b hab
      simp only [Option.some.injEq, Prod.mk.injEq] at h
      obtain ⟨rfl, rfl, rfl⟩ := h
      obtain ⟨q1, q2, q3, q4, q5⟩ := (decomp2_spec (by omega) hNp).1 _ _ hab
      exact ⟨⟨q1, q2⟩, ⟨q3, q4⟩, ⟨le_rfl, by omega⟩, by rw [Nat.mul_one, q5]⟩
  · obtain ⟨q1, q2, q3, q4, q5, q6, q7⟩ := (decomp3_spec (by omega) (by omega) hNp).1 _ _ _ h
    exact ⟨⟨q1, q2⟩, ⟨q3, q4⟩, ⟨q5, q6⟩, q7⟩

/-- **C13**, completeness and optimality: if any split into `Np` non-empty Grids exists, one is
found, and the one found exchanges no more cells than any other. -/
theorem domDecomp_optimal (ng Nx Ny Nz Np rx ry rz : Nat) (hS : Shape Nx Ny Nz) (hNp : 1 ≤ Np)
    (h : Split Nx Ny Nz Np rx ry rz) :
    ∃ a b c, domDecomp ng Nx Ny Nz Np = some (a, b, c) ∧
      traffic ng Nx Ny Nz a b c ≤ traffic ng Nx Ny Nz rx ry rz := by
  obtain ⟨⟨x1, x2⟩, ⟨y1, y2⟩, ⟨z1, z2⟩, hc⟩ := h
  obtain ⟨s1, s2, s3, s4⟩ := hS
  unfold domDecomp
  by_cases hz : Nz = 1
  · have hrz : rz = 1 := by omega
    subst hz hrz
    rw [Nat.mul_one] at hc
    by_cases hy : Ny = 1
    · have hry : ry = 1 := by omega
      subst hy hry
      rw [Nat.mul_one] at hc; subst hc
      rw [if_pos ⟨s1, rfl, rfl⟩, if_neg (by omega)]
      exact ⟨_, _, _, rfl, le_rfl⟩
    · rw [if_neg (by omega), if_pos ⟨s1, by omega, rfl⟩]
      obtain ⟨r, q, e1, e2⟩ := (decomp2_spec (ng := ng) (Nx := Nx) (by omega) hNp).2 rx ry x1 x2 y1 y2 hc
      rw [e1]
      exact ⟨r, q, 1, rfl, by rw [traffic_eq_cost2, traffic_eq_cost2]; exact e2⟩
  · rw [if_neg (by omega), if_neg (by omega), if_pos ⟨s1, s4 (by omega), by omega⟩]
    obtain ⟨a, b, c, e1, e2⟩ :=
      (decomp3_spec (ng := ng) (Nx := Nx) (by omega) (by omega) hNp).2 rx ry rz x1 x2 y1 y2 z1 z2 hc
    exact ⟨a, b, c, e1, by rw [traffic_eq_cost3, traffic_eq_cost3]; exact e2⟩

/-- **C13**, failure: the routine reports an error exactly when no split exists. -/
theorem domDecomp_fails_iff (ng Nx Ny Nz Np : Nat) (hS : Shape Nx Ny Nz) (hNp : 1 ≤ Np) :
    domDecomp ng Nx Ny Nz Np = none ↔ ¬ ∃ rx ry rz, Split Nx Ny Nz Np rx ry rz := by
  constructor
  · rintro h ⟨rx, ry, rz, hs⟩
    obtain ⟨a, b, c, e, _⟩ := domDecomp_optimal ng Nx Ny Nz Np rx ry rz hS hNp hs
    rw [h] at e; cases e
  · intro h
    cases hd : domDecomp ng Nx Ny Nz Np with
    | none => rfl
    | some r => exact absurd ⟨_, _, _, domDecomp_valid ng Nx Ny Nz Np r.1 r.2.1 r.2.2 hNp hd⟩ h

/-- Non-vacuity: a 64×64×32 Domain on 12 ranks is split, and `7` ranks on 2×2 cells cannot. -/
example : Shape 64 64 32 ∧ Split 64 64 32 12 3 2 2 ∧ Shape 2 2 1 ∧
    domDecomp 4 2 2 1 7 = none := by
  have hS : Shape 2 2 1 := by unfold Shape; omega
  refine ⟨by unfold Shape; omega, ⟨by omega, by omega, by omega, rfl⟩, hS, ?_⟩
  rw [domDecomp_fails_iff _ _ _ _ _ hS (by omega)]
  rintro ⟨rx, ry, rz, ⟨x1, x2⟩, ⟨y1, y2⟩, ⟨z1, z2⟩, h⟩
  interval_cases rx <;> interval_cases ry <;> interval_cases rz <;> omega

/-! ## C14 -/

theorem assignDomains_spec {P : Nat} (hP : 0 < P) : ∀ (cnts : List Nat) (next : Nat), next < P →
    ∀ ids nx, assignDomains P cnts next = .ok (ids, nx) →
      ids.map List.length = cnts ∧ (∀ c ∈ cnts, c ≤ P) ∧
      ids.flatten = (List.range cnts.sum).map (fun i => (next + i) % P) ∧
      nx = (next + cnts.sum) % P ∧ ∀ b ∈ ids, b.Nodup := by
  intro cnts
  induction cnts with
  | nil =>
    intro next hn ids nx h
    simp only [assignDomains, Res.ok.injEq, Prod.mk.injEq] at h
    obtain ⟨rfl, rfl⟩ := h
    simp [Nat.mod_eq_of_lt hn]
  | cons c rest ih =>
    intro next hn ids nx h
    simp only [assignDomains] at h
    split_ifs at h with hc
    rw [assignIDs_eq hP c next hn] at h
    dsimp only at h
    cases hr : assignDomains P rest ((next + c) % P) with
    | fatal => rw [hr] at h; cases h
    | ub => rw [hr] at h; cases h
    | ok v =>
      obtain ⟨ids', nx'⟩ := v
      rw [hr] at h
      simp only [Res.ok.injEq, Prod.mk.injEq] at h
      obtain ⟨rfl, rfl⟩ := h
      obtain ⟨a1, a2, a3, a4, a5⟩ := ih _ (Nat.mod_lt _ hP) _ _ hr
      refine ⟨by simp [a1], ?_, ?_, ?_, ?_⟩
      · intro c' hc'
        rcases List.mem_cons.1 hc' with rfl | hc'
        · omega
        · exact a2 c' hc'
      · rw [List.flatten_cons, a3, List.sum_cons, List.range_add, List.map_append]
        congr 1
        rw [List.map_map]
        apply List.map_congr_left
        intro i _
        simp only [Function.comp, Nat.mod_add_mod]
        congr 1; omega
      · rw [a4, List.sum_cons, Nat.mod_add_mod]; congr 1; omega
      · intro b hb
        rcases List.mem_cons.1 hb with rfl | hb
        · refine List.Nodup.map_on ?_ List.nodup_range
          intro i hi j hj hij
          rw [List.mem_range] at hi hj
          have hcP : c ≤ P := by omega
          by_contra hne
          have hmod : i % P = j % P := by
            have := hij
            exact Nat.ModEq.add_left_cancel' next this
          rw [Nat.mod_eq_of_lt (by omega), Nat.mod_eq_of_lt (by omega)] at hmod
          exact hne hmod
        · exact a5 b hb

theorem count_cyclic {P : Nat} (p : Nat) (hp : p < P) : ∀ k,
    ((List.range (k * P)).map (fun i => (0 + i) % P)).count p = k := by
  intro k
  induction k with
  | zero => simp
  | succ n ih =>
    rw [Nat.succ_mul, List.range_add, List.map_append, List.count_append, ih, List.map_map]
    congr 1
    have : (List.range P).map ((fun i => (0 + i) % P) ∘ fun x => n * P + x) = List.range P := by
      conv_rhs => rw [← List.map_id (List.range P)]
      apply List.map_congr_left
      intro i hi
      rw [List.mem_range] at hi
      simp only [Function.comp, Nat.zero_add, Nat.mul_add_mod_self_right, id]
      exact Nat.mod_eq_of_lt hi
    rw [this]
    exact List.count_eq_one_of_mem List.nodup_range (List.mem_range.2 hp)

/-- **C14.** If the mesh set-up accepts a configuration of Domains with `cnts` Grids on `P ≥ 1`
ranks then every Grid of every Domain has been given a rank, no rank holds two Grids of one Domain,
and all ranks hold the same number of Grids. -/
theorem ranks_balanced (P : Nat) (hP : 1 ≤ P) (cnts : List Nat) (ids : List (List Nat))
    (h : assignAll P cnts = .ok ids) :
    ids.map List.length = cnts ∧ (∀ b ∈ ids, b.Nodup ∧ ∀ p ∈ b, p < P) ∧
    ∃ k, cnts.sum = k * P ∧ ∀ p < P, ids.flatten.count p = k := by
  unfold assignAll at h
  cases hr : assignDomains P cnts 0 with
  | fatal => rw [hr] at h; cases h
  | ub => rw [hr] at h; cases h
  | ok v =>
    obtain ⟨ids', nx⟩ := v
    rw [hr] at h
    dsimp only at h
    split_ifs at h with hnx
    simp only [Res.ok.injEq] at h; subst h
    obtain ⟨a1, a2, a3, a4, a5⟩ := assignDomains_spec hP cnts 0 hP _ _ hr
    have hnx : nx = 0 := by omega
    have hdvd : P ∣ cnts.sum := by
      rw [hnx, Nat.zero_add] at a4; exact Nat.dvd_of_mod_eq_zero a4.symm
    obtain ⟨k, hk⟩ := hdvd
    refine ⟨a1, ?_, k, by rw [hk, Nat.mul_comm], ?_⟩
    · intro b hb
      refine ⟨a5 b hb, fun p hp => ?_⟩
      have : p ∈ ids'.flatten := List.mem_flatten.2 ⟨b, hb, hp⟩
      rw [a3, List.mem_map] at this
      obtain ⟨i, _, rfl⟩ := this
      exact Nat.mod_lt _ hP
    · intro p hp
      rw [a3, hk, Nat.mul_comm P k]
      exact count_cyclic p hp k

/-- **C14**, acceptance: a configuration is accepted exactly when no Domain needs more Grids than
there are ranks and the total number of Grids is a multiple of the number of ranks. -/
theorem ranks_accepted_iff (P : Nat) (hP : 1 ≤ P) (cnts : List Nat) :
    (∃ ids, assignAll P cnts = .ok ids) ↔ (∀ c ∈ cnts, c ≤ P) ∧ P ∣ cnts.sum := by
  constructor
  · rintro ⟨ids, h⟩
    obtain ⟨a1, a2, k, hk, _⟩ := ranks_balanced P hP cnts ids h
    refine ⟨?_, ⟨k, by rw [hk, Nat.mul_comm]⟩⟩
    unfold assignAll at h
    cases hr : assignDomains P cnts 0 with
    | fatal => rw [hr] at h; cases h
    | ub => rw [hr] at h; cases h
    | ok v => exact (assignDomains_spec hP cnts 0 hP v.1 v.2 hr).2.1
  · rintro ⟨h1, h2⟩
    have key : ∀ (cnts : List Nat), (∀ c ∈ cnts, c ≤ P) → ∀ next, ∃ v, assignDomains P cnts next = .ok v := by
      intro cnts
      induction cnts with
      | nil => intro _ next; exact ⟨_, rfl⟩
      | cons c rest ih =>
        intro h next
        have hc := h c (by simp)
        obtain ⟨v, hv⟩ := ih (fun c hc => h c (by simp [hc])) (assignIDs P c next).2
        exact ⟨_, by simp only [assignDomains]; rw [if_neg (by omega), hv]⟩
    obtain ⟨v, hv⟩ := key cnts h1 0
    have hs := assignDomains_spec hP cnts 0 hP v.1 v.2 hv
    refine ⟨v.1, ?_⟩
    unfold assignAll
    rw [hv]
    dsimp only
    rw [if_neg]
    rw [hs.2.2.2.1, Nat.zero_add, Nat.mod_eq_zero_of_dvd h2]
    simp

/-- Non-vacuity: root Domain with 4 Grids and two refined ones with 3 and 1 Grids on 4 ranks. -/
example : assignAll 4 [4, 3, 1] = .ok [[0,1,2,3], [0,1,2], [3]] := by decide

end Athena.Mesh
