import Verif.Rel.Fix

/-!
C107: where the repair by first-order fluxes of the relativistic integrators fails.  Two
adjacent bad zones in one dimension; any bad zone in three dimensions.
-/
namespace Athena.Rel

theorem rest_dens (g d E : ℝ) : (consToPrim g ⟨d, 0, 0, 0, E⟩).d = d := by
  unfold consToPrim
  have h : |√(0 * 0 + 0 * 0 + 0 * 0 : ℝ)| < tiny := by norm_num [tiny]
  simp only [h, if_true, clamp]
  norm_num

/-- Gas at rest. -/
def still : Prim := ⟨1, 0, 0, 0, 1⟩

theorem still_warm : still.Warm := by constructor <;> norm_num [still, Prim.vsq]

theorem still_cons : primToCons (5 / 3) still = ⟨1, 0, 0, 0, 5 / 2⟩ := by
  rw [primToCons_eq]
  norm_num [still, Prim.enth, Prim.vsq]

theorem still_flux : hllcSR (5 / 3) (primToCons (5 / 3) still) (primToCons (5 / 3) still) still still
    = ⟨0, 1, 0, 0, 0⟩ := by
  rw [sr_hllc_consistent (by norm_num) (by norm_num) still still_warm]
  norm_num [physFlux, still]

/-- High-order fluxes that carry too much mass through the faces 1 and 2. -/
def bigFlux (f : ℤ) : Cons := if f = 1 ∨ f = 2 then ⟨4, 1, 0, 0, 0⟩ else ⟨0, 1, 0, 0, 0⟩

/-- The two zones of the counterexample after the repair. -/
theorem adjacent_run :
    let s := correct1 (flagged (5 / 3)) (1 / 2) 0 2 bigFlux (fun _ => ⟨0, 1, 0, 0, 0⟩)
      (fun _ => ⟨1, 0, 0, 0, 5 / 2⟩)
    s.fixed = [1, 0] ∧ s.U 1 = ⟨-1, 0, 0, 0, 5 / 2⟩ := by
  have z : zones 0 2 = [0, 1] := by simp [zones, List.range_succ]
  have e0 : step14 (1 / 2) 0 (0 + (2 : ℕ) - 1) bigFlux (fun _ => ⟨1, 0, 0, 0, 5 / 2⟩) 0 =
      ⟨-1, 0, 0, 0, 5 / 2⟩ := by
    norm_num [step14, updHalf, bigFlux]
  have e1 : step14 (1 / 2) 0 (0 + (2 : ℕ) - 1) bigFlux (fun _ => ⟨1, 0, 0, 0, 5 / 2⟩) 1 =
      ⟨1, 0, 0, 0, 5 / 2⟩ := by
    norm_num [step14, updHalf, bigFlux]
  have bad : flagged (5 / 3) ⟨-1, 0, 0, 0, 5 / 2⟩ := by
    left; rw [rest_dens]; norm_num
  have f1 : fixCell1 (1 / 2) 0 (0 + (2 : ℕ) - 1) bigFlux (fun _ => ⟨0, 1, 0, 0, 0⟩) 0
      (step14 (1 / 2) 0 (0 + (2 : ℕ) - 1) bigFlux (fun _ => ⟨1, 0, 0, 0, 5 / 2⟩)) 1 =
      ⟨-1, 0, 0, 0, 5 / 2⟩ := by
    simp only [fixCell1, e1]
    norm_num [Cons.sub, Cons.smul, bigFlux]
  simp only [correct1, z, List.foldl_cons, List.foldl_nil]
  have v0 : visit (flagged (5 / 3)) (1 / 2) 0 (0 + (2 : ℕ) - 1) bigFlux (fun _ => ⟨0, 1, 0, 0, 0⟩)
      ⟨step14 (1 / 2) 0 (0 + (2 : ℕ) - 1) bigFlux (fun _ => ⟨1, 0, 0, 0, 5 / 2⟩), []⟩ 0 =
      ⟨fixCell1 (1 / 2) 0 (0 + (2 : ℕ) - 1) bigFlux (fun _ => ⟨0, 1, 0, 0, 0⟩) 0
      (step14 (1 / 2) 0 (0 + (2 : ℕ) - 1) bigFlux (fun _ => ⟨1, 0, 0, 0, 5 / 2⟩)), [0]⟩ := by
    unfold visit
    rw [if_pos]
    simp only [e0]; exact bad
  rw [v0]
  unfold visit
  rw [if_pos (by simp only [f1]; exact bad)]
  refine ⟨rfl, ?_⟩
  simp only
  rw [fixCell1]
  simp only [if_true, f1]
  norm_num [Cons.sub, Cons.smul, Cons.add, bigFlux]

/-- **C107 fails for adjacent bad zones.**  It is not so that a repaired zone is physical,
although the old states, the time step and hence the first-order update are: `FixCell` does not
record that a face has got its first-order flux, so when the zone next to a repaired zone is
repaired too, the difference of the fluxes of the shared face is applied twice. -/
theorem sr_fix_adjacent_false :
    ¬ ∀ (g lam : ℝ), 1 < g → g ≤ 2 → 0 ≤ lam → lam ≤ 1 / 2 → ∀ (is : ℤ) (n : ℕ) (F : ℤ → Cons)
      (W : ℤ → Prim), (∀ i, (W i).Warm) → ∀ i,
      let U := fun i => primToCons g (W i)
      let s := correct1 (flagged g) lam is n F
        (fun f => hllcSR g (U (f - 1)) (U f) (W (f - 1)) (W f)) U
      i ∈ s.fixed → ∃ W' : Prim, W'.Warm ∧ primToCons g W' = s.U i := by
  intro h
  have h1 := h (5 / 3) (1 / 2) (by norm_num) (by norm_num) (by norm_num) le_rfl 0 2 bigFlux
    (fun _ => still) (fun _ => still_warm) 1
  simp only [still_flux] at h1
  simp only [still_cons] at h1
  obtain ⟨a, b⟩ := adjacent_run
  obtain ⟨W', hW, e⟩ := h1 (by rw [a]; decide)
  rw [b] at e
  have := ((warm_iff (by norm_num) (by norm_num) (primToCons (5 / 3) W')).2 ⟨W', hW, rfl⟩).d
  rw [e] at this
  norm_num at this

/-- The hypotheses of the positive theorems are met: high-order fluxes that spoil one zone. -/
example : let s := correct1 (flagged (5 / 3)) (1 / 2) 0 1 (fun f => if f = 1 then ⟨4, 1, 0, 0, 0⟩
      else ⟨0, 1, 0, 0, 0⟩) (fun _ => ⟨0, 1, 0, 0, 0⟩) (fun _ => ⟨1, 0, 0, 0, 5 / 2⟩)
    (0 : ℤ) ∈ s.fixed ∧ (0 : ℤ) - 1 ∉ s.fixed ∧ (0 : ℤ) + 1 ∉ s.fixed := by
  have z : zones 0 1 = [0] := by simp [zones]
  have e0 : step14 (1 / 2) 0 (0 + (1 : ℕ) - 1) (fun f => if f = 1 then ⟨4, 1, 0, 0, 0⟩
      else ⟨0, 1, 0, 0, 0⟩) (fun _ => ⟨1, 0, 0, 0, 5 / 2⟩) 0 = ⟨-1, 0, 0, 0, 5 / 2⟩ := by
    norm_num [step14, updHalf]
  have bad : flagged (5 / 3) ⟨-1, 0, 0, 0, 5 / 2⟩ := by
    left; rw [rest_dens]; norm_num
  simp only [correct1, z, List.foldl_cons, List.foldl_nil]
  unfold visit
  rw [if_pos (by simp only [e0]; exact bad)]
  simp

/-! ### Two and three dimensions -/

/-- Conserved variables and fluxes on a two-dimensional Grid, `U j i`. -/
abbrev G2 := ℤ → ℤ → Cons

/-- A flux in the 1-direction in the order `d, M1, M2, M3, E` (integrate_2d_vl_sr.c:854-859). -/
def to1 (F : Cons) : Cons := F

/-- A flux in the 2-direction in the order `d, M1, M2, M3, E` (integrate_2d_vl_sr.c:881-886). -/
def to2 (F : Cons) : Cons := ⟨F.d, F.Mz, F.Mx, F.My, F.E⟩

/-- A flux in the 3-direction in the order `d, M1, M2, M3, E` (integrate_3d_vl_sr.c:1298-1303). -/
def to3 (F : Cons) : Cons := ⟨F.d, F.My, F.Mz, F.Mx, F.E⟩

/-- Step 14 in two dimensions, one zone (integrate_2d_vl_sr.c:854-886). -/
def upd2 (l1 l2 : ℝ) (F1 F2 U : G2) (j i : ℤ) : Cons :=
  updHalf l2 (updHalf l1 (U j i) (to1 (F1 j (i + 1))) (to1 (F1 j i)))
    (to2 (F2 (j + 1) i)) (to2 (F2 j i))

/-- What `FixCell` does to the bad zone in two dimensions (integrate_2d_vl_sr.c:1455-1545). -/
def fixCell2 (l1 l2 : ℝ) (F1 F1P F2 F2P : G2) (j i : ℤ) (U : Cons) : Cons :=
  let x1i := to1 ((F1 j i).sub (F1P j i))
  let x1p := to1 ((F1 j (i + 1)).sub (F1P j (i + 1)))
  let x2j := to2 ((F2 j i).sub (F2P j i))
  let x2p := to2 ((F2 (j + 1) i).sub (F2P (j + 1) i))
  (U.add ((x1p.sub x1i).smul l1)).add ((x2p.sub x2j).smul l2)

/-- **C107 in two dimensions.**  A bad zone that no other repair touched holds the first-order
update after `FixCell`. -/
theorem sr_fix2_zone_partial (l1 l2 : ℝ) (F1 F1P F2 F2P U : G2) (j i : ℤ) :
    fixCell2 l1 l2 F1 F1P F2 F2P j i (upd2 l1 l2 F1 F2 U j i) = upd2 l1 l2 F1P F2P U j i := by
  unfold fixCell2 upd2 updHalf Cons.add Cons.smul Cons.sub to1 to2
  ext <;> simp only <;> ring

/-- Conserved variables and fluxes on a three-dimensional Grid, `U k j i`. -/
abbrev G3 := ℤ → ℤ → ℤ → Cons

/-- Step 14 in three dimensions, one zone (integrate_3d_vl_sr.c:1241-1303). -/
def upd3 (l1 l2 l3 : ℝ) (F1 F2 F3 U : G3) (k j i : ℤ) : Cons :=
  updHalf l3 (updHalf l2 (updHalf l1 (U k j i) (to1 (F1 k j (i + 1))) (to1 (F1 k j i)))
    (to2 (F2 k (j + 1) i)) (to2 (F2 k j i))) (to3 (F3 (k + 1) j i)) (to3 (F3 k j i))

/-- `FixCell` in three dimensions without field (integrate_3d_vl_sr.c:2196-2360), the Grid
`is..ie` by `js..je` by `ks..ke`.  As in the code, `x3FD_kp1` is a difference with the flux in
the **2**-direction (lines 2216-2248), and the momenta of the 3-fluxes are added in the order
of the 2-fluxes (lines 2287-2292, 2341-2357). -/
def fixCell3 (l1 l2 l3 : ℝ) (is ie js je ks ke : ℤ) (F1 F1P F2 F2P F3 F3P : G3) (k j i : ℤ)
    (U : G3) : G3 :=
  let x1i := to1 ((F1 k j i).sub (F1P k j i))
  let x1p := to1 ((F1 k j (i + 1)).sub (F1P k j (i + 1)))
  let x2j := to2 ((F2 k j i).sub (F2P k j i))
  let x2p := to2 ((F2 k (j + 1) i).sub (F2P k (j + 1) i))
  let x3k := to2 ((F3 k j i).sub (F3P k j i))
  let x3p := to2 ((F2 (k + 1) j i).sub (F3P (k + 1) j i))
  fun c b a =>
    if (c, b, a) = (k, j, i) then
      (((U c b a).add ((x1p.sub x1i).smul l1)).add ((x2p.sub x2j).smul l2)).add
        ((x3p.sub x3k).smul l3)
    else if (c, b, a) = (k, j, i - 1) ∧ i > is then (U c b a).add (x1i.smul l1)
    else if (c, b, a) = (k, j, i + 1) ∧ i < ie then (U c b a).sub (x1p.smul l1)
    else if (c, b, a) = (k, j - 1, i) ∧ j > js then (U c b a).add (x2j.smul l2)
    else if (c, b, a) = (k, j + 1, i) ∧ j < je then (U c b a).sub (x2p.smul l2)
    else if (c, b, a) = (k - 1, j, i) ∧ k > ks then (U c b a).add (x3k.smul l3)
    else if (c, b, a) = (k + 1, j, i) ∧ k < ke then (U c b a).sub (x3p.smul l3)
    else U c b a

/-- **C107 in three dimensions, conservation.**  `FixCell` of a zone inside the Grid takes from
its six neighbours what it gives to the zone. -/
theorem sr_fix3_conserves_partial (l1 l2 l3 : ℝ) (is ie js je ks ke : ℤ)
    (F1 F1P F2 F2P F3 F3P U : G3) (k j i : ℤ) (h1 : is < i ∧ i < ie) (h2 : js < j ∧ j < je)
    (h3 : ks < k ∧ k < ke) (q : Cons → ℝ) (hq : q ∈ quantities) :
    let T : G3 → ℝ := fun V => q (V k j i) + q (V k j (i - 1)) + q (V k j (i + 1)) +
      q (V k (j - 1) i) + q (V k (j + 1) i) + q (V (k - 1) j i) + q (V (k + 1) j i)
    T (fixCell3 l1 l2 l3 is ie js je ks ke F1 F1P F2 F2P F3 F3P k j i U) = T U := by
  have e1 : ∀ n : ℤ, n - 1 ≠ n := fun n => by omega
  have e2 : ∀ n : ℤ, n + 1 ≠ n := fun n => by omega
  have e3 : ∀ n : ℤ, n + 1 ≠ n - 1 := fun n => by omega
  have e4 : ∀ n : ℤ, n ≠ n - 1 := fun n => by omega
  have e5 : ∀ n : ℤ, n ≠ n + 1 := fun n => by omega
  simp only [quantities, List.mem_cons, List.not_mem_nil, or_false] at hq
  rcases hq with rfl | rfl | rfl | rfl | rfl <;>
  · simp only [fixCell3, Prod.mk.injEq, e1, e2, e3, e4, e5, and_false, false_and, and_true,
      true_and, if_true, if_false, gt_iff_lt, h1.1, h1.2, h2.1, h2.2, h3.1, h3.2]
    simp only [Cons.add, Cons.sub, Cons.smul]
    ring

/-- Flux of a state through faces across the directions 1, 2, 3 (the solver is handed the
velocity with the normal component first). -/
noncomputable def flux3 (g : ℝ) (W : Prim) : Cons × Cons × Cons :=
  (physFlux g W, physFlux g ⟨W.d, W.Vy, W.Vz, W.Vx, W.P⟩, physFlux g ⟨W.d, W.Vz, W.Vx, W.Vy, W.P⟩)

/-- **C107 fails in three dimensions.**  In a uniform flow, where the high-order and the
first-order fluxes of every face are the flux of the flow, the repair should change nothing; it
changes the density of the zone, because the flux through its upper 3-face is compared with the
flux in the 2-direction. -/
theorem sr_fix3_uniform_false :
    ¬ ∀ (g l1 l2 l3 : ℝ), 1 < g → g ≤ 2 → 0 < l3 → ∀ W : Prim, W.Warm →
      let F1 : G3 := fun _ _ _ => (flux3 g W).1
      let F2 : G3 := fun _ _ _ => (flux3 g W).2.1
      let F3 : G3 := fun _ _ _ => (flux3 g W).2.2
      let U : G3 := fun _ _ _ => primToCons g W
      fixCell3 l1 l2 l3 0 9 0 9 0 9 F1 F1 F2 F2 F3 F3 5 5 5 U 5 5 5 = U 5 5 5 := by
  intro h
  have h1 := h (5 / 3) (1 / 4) (1 / 4) (1 / 4) (by norm_num) (by norm_num) (by norm_num)
    ⟨1, 0, 3 / 5, 0, 1⟩ (by constructor <;> norm_num [Prim.vsq])
  have e : √(1 - (0 ^ 2 + (3 / 5) ^ 2 + 0 ^ 2 : ℝ)) = 4 / 5 := by
    rw [show (1 - (0 ^ 2 + (3 / 5) ^ 2 + 0 ^ 2) : ℝ) = (4 / 5) ^ 2 by norm_num]
    exact Real.sqrt_sq (by norm_num)
  have e' : √(1 - ((3 / 5) ^ 2 + 0 ^ 2 + 0 ^ 2 : ℝ)) = 4 / 5 := by
    rw [show (1 - ((3 / 5) ^ 2 + 0 ^ 2 + 0 ^ 2) : ℝ) = (4 / 5) ^ 2 by norm_num]
    exact Real.sqrt_sq (by norm_num)
  have h2 := congrArg Cons.d h1
  simp only [fixCell3, if_true, flux3, physFlux, Cons.add, Cons.sub, Cons.smul, to1, to2, e'] at h2
  norm_num at h2

/-- **C107 fails in three dimensions, second error.**  Even where the 2-fluxes happen to equal
the 3-fluxes, so that the wrong array does no harm, the repaired zone does not get the
first-order update: the momenta of the 3-fluxes go to the wrong components. -/
theorem sr_fix3_component_false :
    ¬ ∀ (l1 l2 l3 : ℝ) (F1 F1P F F2P F3P U : G3),
      fixCell3 l1 l2 l3 0 9 0 9 0 9 F1 F1P F F2P F F3P 5 5 5
        (upd3 l1 l2 l3 F1 F F U) 5 5 5 = upd3 l1 l2 l3 F1P F2P F3P U 5 5 5 := by
  intro h
  have h1 := congrArg Cons.My (h 0 0 1 (fun _ _ _ => ⟨0, 0, 0, 0, 0⟩) (fun _ _ _ => ⟨0, 0, 0, 0, 0⟩)
    (fun k _ _ => if k = 6 then ⟨0, 1, 0, 0, 0⟩ else ⟨0, 0, 0, 0, 0⟩) (fun _ _ _ => ⟨0, 0, 0, 0, 0⟩)
    (fun _ _ _ => ⟨0, 0, 0, 0, 0⟩) (fun _ _ _ => ⟨0, 0, 0, 0, 0⟩))
  norm_num [fixCell3, upd3, updHalf, Cons.add, Cons.sub, Cons.smul, to1, to2, to3] at h1

end Athena.Rel
