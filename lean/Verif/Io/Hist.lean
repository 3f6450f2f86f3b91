import Verif.Mesh.DecompProps
import Mathlib.Algebra.BigOperators.Field
import Mathlib.Algebra.BigOperators.Fin
import Mathlib.Algebra.Order.BigOperators.Group.Finset
import Mathlib.Algebra.Order.Field.Basic
import Mathlib.Data.Fin.VecNotation
import Mathlib.Data.Rat.Defs
import Mathlib.Algebra.Order.Ring.Rat
import Mathlib.Tactic.FieldSimp
import Mathlib.Tactic.FinCases
import Mathlib.Tactic.Ring
import Mathlib.Tactic.Linarith
import Mathlib.Tactic.Positivity
import Mathlib.Tactic.NormNum

/-!
# src/dump_history.c: volume averages written to the history file; C58

Numbers are elements of an ordered field (simplification: no rounding).  The file is the list of lines written to it;
names are the subject of C56.
-/

namespace Athena.Hist

open Athena.Mesh

variable {K : Type} [Field K] [LinearOrder K] [IsStrictOrderedRing K]

/-! ## Specification -/

/-- The contents of a zone that enter the history: conserved variables, potential, scalars, and what `Cons_to_Prim`
makes of them (used with special relativity only). -/
structure Cell (K : Type) where
  d : K
  m : Fin 3 → K
  e : K
  b : Fin 3 → K
  phi : K
  s : ℕ → K
  wd : K
  wv : Fin 3 → K
  wp : K

/-- The columns. -/
inductive HCol where
  | time | dt | mass | energy
  | mom (a : Fin 3)
  | kin (a : Fin 3)
  | mag (a : Fin 3)
  | grav
  | scalar (n : ℕ)
  | angular
  | gamma
  | uSq (a : Fin 3)
  | press
  | bt
  | bSq (a : Fin 3)
  | bsq
  | emEnergy
  | user (n : ℕ)
deriving DecidableEq

/-- The history column's label, without the blanks around it. -/
def HCol.label (usr : ℕ → String) : HCol → String
  | .time => "time"
  | .dt => "dt"
  | .mass => "mass"
  | .energy => "total E"
  | .mom a => ["x1 Mom.", "x2 Mom.", "x3 Mom."].get a
  | .kin a => ["x1-KE", "x2-KE", "x3-KE"].get a
  | .mag a => ["x1-ME", "x2-ME", "x3-ME"].get a
  | .grav => "grav PE"
  | .scalar n => "scalar " ++ toString n
  | .angular => "Ang.Mom."
  | .gamma => "Gamma"
  | .uSq a => ["x1-KE", "x2-KE", "x3-KE"].get a
  | .press => "Press"
  | .bt => "x0-ME"
  | .bSq a => ["x1-ME", "x2-ME", "x3-ME"].get a
  | .bsq => "bsq"
  | .emEnergy => "T^00_EM"
  | .user n => usr n

/-- The density whose average a column holds, at radius `r` (cylindrical coordinates), with the user's functions `uf`.
Lorentz factor `g = D/ρ`; the magnetic four-vector is `b^t = g v·B`, `b^i = B_i/g + g (v·B) v_i`. -/
def HCol.dens (uf : ℕ → K) (r : K) (u : Cell K) : HCol → K
  | .time => 0
  | .dt => 0
  | .mass => u.d
  | .energy => u.e
  | .mom a => u.m a
  | .kin a => u.m a ^ 2 / (2 * u.d)
  | .mag a => u.b a ^ 2 / 2
  | .grav => u.d * u.phi
  | .scalar n => u.s n
  | .angular => r * u.m 1
  | .gamma => (u.d / u.wd) ^ 2
  | .uSq a => (u.d / u.wd * u.wv a) ^ 2
  | .press => u.wp
  | .bt => (u.d / u.wd * ∑ a, u.wv a * u.b a) ^ 2
  | .bSq a => (u.b a / (u.d / u.wd) + u.d / u.wd * (∑ c, u.wv c * u.b c) * u.wv a) ^ 2
  | .bsq => (∑ a, u.b a ^ 2) / (u.d / u.wd) ^ 2 + (∑ a, u.wv a * u.b a) ^ 2
  | .emEnergy => (∑ a, u.b a ^ 2) * (1 - 1 / (2 * (u.d / u.wd) ^ 2)) - (∑ a, u.wv a * u.b a) ^ 2 / 2
  | .user n => uf n

/-- How Athena is configured (`nscal`: number of passive scalars). -/
structure Cfg where
  adiabatic : Bool
  mhd : Bool
  selfg : Bool
  cyl : Bool
  sr : Bool
  nscal : ℕ

/-- The documented columns (src/dump_history.c:17-62), with `nu` enrolled by the user. -/
def columns (c : Cfg) (nu : ℕ) : List HCol :=
  [.time, .dt] ++
  (if c.sr then
    [.mass, .energy, .mom 0, .mom 1, .mom 2, .gamma, .uSq 0, .uSq 1, .uSq 2, .press] ++
    (if c.mhd then [.bt, .bSq 0, .bSq 1, .bSq 2, .bsq, .emEnergy] else [])
   else
    [.mass] ++ (if c.adiabatic then [.energy] else []) ++ [.mom 0, .mom 1, .mom 2, .kin 0, .kin 1, .kin 2] ++
    (if c.mhd then [.mag 0, .mag 1, .mag 2] else []) ++ (if c.selfg then [.grav] else []) ++
    (List.range c.nscal).map .scalar ++ (if c.cyl then [.angular] else [])) ++
  (List.range nu).map .user

/-- A Domain: zones, position of the lower corner, size of a zone, contents of zone (i, j, k). -/
structure HDom (K : Type) where
  nx : Fin 3 → ℕ
  minX : Fin 3 → K
  dx : Fin 3 → K
  u : ℕ → ℕ → ℕ → Cell K
  uf : ℕ → ℕ → ℕ → ℕ → K

/-- Positive numbers of zones and sizes; densities are not zero. -/
structure HDom.Proper (D : HDom K) : Prop where
  nx : ∀ a, 0 < D.nx a
  dx : ∀ a, 0 < D.dx a
  d : ∀ i j k, (D.u i j k).d ≠ 0
  wd : ∀ i j k, (D.u i j k).wd ≠ 0

/-- The radius of the centre of zone `i`. -/
def HDom.r (D : HDom K) (i : ℕ) : K := D.minX 0 + (i + 1 / 2) * D.dx 0

/-- The volume of a zone: `dx1 dx2 dx3`, in cylindrical coordinates `(r_o^2 - r_i^2)/2 dphi dz`. -/
def HDom.vol (c : Cfg) (D : HDom K) (i : ℕ) : K :=
  (if c.cyl then ((D.minX 0 + (i + 1) * D.dx 0) ^ 2 - (D.minX 0 + i * D.dx 0) ^ 2) / 2 else D.dx 0) *
    D.dx 1 * D.dx 2

/-- The sum of a quantity over the zones of a Domain. -/
def HDom.sum (D : HDom K) (q : ℕ → ℕ → ℕ → K) : K :=
  ∑ k ∈ Finset.range (D.nx 2), ∑ j ∈ Finset.range (D.nx 1), ∑ i ∈ Finset.range (D.nx 0), q i j k

/-- The average over the Domain's volume of a column's density. -/
def HDom.average (c : Cfg) (D : HDom K) (col : HCol) : K :=
  D.sum (fun i j k => D.vol c i * col.dens (D.uf i j k) (D.r i) (D.u i j k)) / D.sum (fun i _ _ => D.vol c i)

/-! ## Model -/

/-- What a zone adds to `scal[2]`, `scal[3]`, …, apart from the factor `dVol`; src/dump_history.c:168-276.  The energy
is summed unless the equation of state is barotropic, that is, isothermal (src/defs.h.in: `BAROTROPIC` is defined with
`ISOTHERMAL`). -/
def zoneVals (c : Cfg) (nu : ℕ) (uf : ℕ → K) (x1 : K) (u : Cell K) : List K :=
  (if c.sr then
    let g := u.d / u.wd
    let g2 := 1 / (g * g)
    let vB := u.wv 0 * u.b 0 + u.wv 1 * u.b 1 + u.wv 2 * u.b 2
    let B2 := u.b 0 * u.b 0 + u.b 1 * u.b 1 + u.b 2 * u.b 2
    let b (a : Fin 3) := g * (u.b a * g2 + vB * u.wv a)
    [u.d, u.e, u.m 0, u.m 1, u.m 2, g * g, g * u.wv 0 * (g * u.wv 0), g * u.wv 1 * (g * u.wv 1),
      g * u.wv 2 * (g * u.wv 2), u.wp] ++
    (if c.mhd then [g * vB * g * vB, b 0 * b 0, b 1 * b 1, b 2 * b 2, B2 * g2 + vB * vB,
      B2 * (1 - 1 / 2 * g2) - vB * vB / 2] else [])
   else
    let d1 := 1 / u.d
    [u.d] ++ (if c.adiabatic then [u.e] else []) ++
    [u.m 0, u.m 1, u.m 2, 1 / 2 * (u.m 0 * u.m 0) * d1, 1 / 2 * (u.m 1 * u.m 1) * d1,
      1 / 2 * (u.m 2 * u.m 2) * d1] ++
    (if c.mhd then [1 / 2 * (u.b 0 * u.b 0), 1 / 2 * (u.b 1 * u.b 1), 1 / 2 * (u.b 2 * u.b 2)] else []) ++
    (if c.selfg then [u.d * u.phi] else []) ++
    (List.range c.nscal).map u.s ++ (if c.cyl then [x1 * u.m 1] else [])) ++
  (List.range nu).map uf

/-- `total_hst_cnt`, src/dump_history.c:118-138. -/
def total (c : Cfg) (nu : ℕ) : ℕ :=
  if c.sr then 12 + nu + (if c.mhd then 6 else 0)
  else 9 + c.nscal + nu + (if c.adiabatic then 1 else 0) + (if c.mhd then 3 else 0) + (if c.selfg then 1 else 0) +
    (if c.cyl then 1 else 0)

/-- The number of elements of `scal`: `NSCAL + NSCALARS + MAX_USR_H_COUNT`, src/dump_history.c:78-81, 100. -/
def scalSize (c : Cfg) : ℕ := 14 + c.nscal + 30

/-- `dVol`, src/dump_history.c:172-180: a factor for every direction with a positive `dx`. -/
def dVol (c : Cfg) (dx : Fin 3 → K) (x1 : K) : K :=
  let v := 1
  let v := if dx 0 > 0 then v * dx 0 else v
  let v := if dx 1 > 0 then v * dx 1 else v
  let v := if dx 2 > 0 then v * dx 2 else v
  if c.cyl then v * x1 else v

/-- `scal[n]` after the loops over the zones of the Grid with `nx` zones and displacement `ds` from the corner of the
Domain; src/dump_history.c:164-286.  The loops run from `is` to `ie`, that is once if there is at most one zone
(src/init_grid.c:86-91).  The array has `scalSize` elements.  Reading and writing beyond them is undefined;
`n < 2` is not summed. -/
def gridSum (c : Cfg) (nu : ℕ) (D : HDom K) (nx ds : Fin 3 → ℕ) (n : ℕ) : K :=
  ∑ k ∈ Finset.range (max (nx 2) 1), ∑ j ∈ Finset.range (max (nx 1) 1), ∑ i ∈ Finset.range (max (nx 0) 1),
    dVol c D.dx (D.r (ds 0 + i)) *
      ((zoneVals c nu (D.uf (ds 0 + i) (ds 1 + j) (ds 2 + k)) (D.r (ds 0 + i))
        (D.u (ds 0 + i) (ds 1 + j) (ds 2 + k)))[n - 2]?).getD 0

/-- The numbers of Grids of a Domain in each direction. -/
structure Split where
  ng : Fin 3 → ℕ

/-- `MPI_Reduce(…MPI_SUM…)` over the Grids of the Domain, src/dump_history.c:290-296. -/
def reduced (c : Cfg) (nu : ℕ) (D : HDom K) (s : Split) (n : ℕ) : K :=
  ∑ g2 ∈ Finset.range (s.ng 2), ∑ g1 ∈ Finset.range (s.ng 1), ∑ g0 ∈ Finset.range (s.ng 0),
    gridSum c nu D ![gridNx (D.nx 0) (s.ng 0) g0, gridNx (D.nx 1) (s.ng 1) g1, gridNx (D.nx 2) (s.ng 2) g2]
      ![gridDisp 0 (D.nx 0) (s.ng 0) g0, gridDisp 0 (D.nx 1) (s.ng 1) g1, gridDisp 0 (D.nx 2) (s.ng 2) g2] n

/-- The volume of the Domain by which the sums are divided, src/dump_history.c:309-316, where
`MaxX = MinX + Nx*dx` (src/init_mesh.c:347-362). -/
def domVol (c : Cfg) (D : HDom K) : K :=
  let maxX (a : Fin 3) := D.minX a + D.nx a * D.dx a
  let v := maxX 0 - D.minX 0
  let v := if c.cyl then 1 / 2 * (maxX 0 * maxX 0 - D.minX 0 * D.minX 0) else v
  let v := if D.nx 1 > 1 then v * (maxX 1 - D.minX 1) else v
  if D.nx 2 > 1 then v * (maxX 2 - D.minX 2) else v

/-- The line written by the parent process of the Domain, src/dump_history.c:147-148, 317-319, 475-478; `ub` if the
array is too small. -/
def line (c : Cfg) (nu : ℕ) (time dt : K) (D : HDom K) (s : Split) : Res (List K) :=
  if total c nu ≤ scalSize c then
    .ok ([time, dt] ++ (List.range (total c nu - 2)).map fun n => reduced c nu D s (n + 2) / domVol c D)
  else .ub

/-- The labels printed for the first dump, with their numbers; src/dump_history.c:362-471. -/
def labels (c : Cfg) (nu : ℕ) (usr : ℕ → String) : List String :=
  ["time", "dt"] ++
  (if c.sr then
    ["mass", "total E", "x1 Mom.", "x2 Mom.", "x3 Mom.", "Gamma", "x1-KE", "x2-KE", "x3-KE", "Press"] ++
    (if c.mhd then ["x0-ME", "x1-ME", "x2-ME", "x3-ME", "bsq", "T^00_EM"] else [])
   else
    ["mass"] ++ (if c.adiabatic then ["total E"] else []) ++
    ["x1 Mom.", "x2 Mom.", "x3 Mom.", "x1-KE", "x2-KE", "x3-KE"] ++
    (if c.mhd then ["x1-ME", "x2-ME", "x3-ME"] else []) ++ (if c.selfg then ["grav PE"] else []) ++
    (List.range c.nscal).map (fun n => "scalar " ++ toString n) ++ (if c.cyl then ["Ang.Mom."] else [])) ++
  (List.range nu).map usr

/-- The processes (numbers in `MPI_COMM_WORLD`, in the order of the Domain's communicator) that write a line:
`(myID_Comm_Domain==0) || (myID_Comm_world==0)`, src/dump_history.c:302-305. -/
def writers (ids : List ℕ) : List ℕ := ((ids.zipIdx).filter fun x => x.2 = 0 ∨ x.1 = 0).map (·.1)

/-- `dump_history_enroll`, src/dump_history.c:486-504: `lab` are the labels enrolled so far. -/
def enroll (lab : List String) (l : String) : Res (List String) :=
  if lab.length ≥ 30 then .fatal else .ok (lab ++ [l])

/-- Several calls. -/
def enrollAll : List String → List String → Res (List String)
  | lab, [] => .ok lab
  | lab, l :: ls => match enroll lab l with
    | .ok lab => enrollAll lab ls
    | .fatal => .fatal
    | .ub => .ub

/-! ## Columns -/

omit [LinearOrder K] [IsStrictOrderedRing K] in
/-- The values summed are the densities of the documented columns. -/
theorem zoneVals_dens [CharZero K] (c : Cfg) (nu : ℕ) (uf : ℕ → K) (x1 : K) (u : Cell K) (hd : u.d ≠ 0) (hw : u.wd ≠ 0) :
    zoneVals c nu uf x1 u = ((columns c nu).drop 2).map (HCol.dens uf x1 u) := by
  have hu : ((List.range nu).map .user : List HCol).map (HCol.dens uf x1 u) = (List.range nu).map uf := by
    rw [List.map_map]; rfl
  have hs : ((List.range c.nscal).map .scalar : List HCol).map (HCol.dens uf x1 u) = (List.range c.nscal).map u.s := by
    rw [List.map_map]; rfl
  unfold zoneVals columns
  simp only [List.cons_append, List.nil_append, List.drop_succ_cons, List.drop_zero, List.map_append, hu]
  congr 1
  cases c.sr
  · simp only [Bool.false_eq_true, if_false, List.map_append, hs]
    have e (y : K) : 1 / 2 * (y * y) * (1 / u.d) = y ^ 2 / (2 * u.d) := by field_simp
    have e' (y : K) : 1 / 2 * (y * y) = y ^ 2 / 2 := by ring
    simp only [e]
    simp only [e']
    cases c.adiabatic <;> cases c.mhd <;> cases c.selfg <;> cases c.cyl <;>
      simp [HCol.dens]
  · simp only [if_true, List.map_append]
    cases c.mhd
    · simp [HCol.dens, sq]
    · have s3 (f : Fin 3 → K) : ∑ a, f a = f 0 + f 1 + f 2 := Fin.sum_univ_three f
      simp only [if_true, List.map_cons, List.map_nil, HCol.dens, s3, List.cons_append, List.nil_append]
      have hg : u.d / u.wd ≠ 0 := div_ne_zero hd hw
      generalize u.d / u.wd = g at hg
      congr 5
      refine List.cons_eq_cons.mpr ⟨by ring, ?_⟩
      refine List.cons_eq_cons.mpr ⟨by ring, ?_⟩
      refine List.cons_eq_cons.mpr ⟨by ring, ?_⟩
      refine List.cons_eq_cons.mpr ⟨by ring, ?_⟩
      refine List.cons_eq_cons.mpr ⟨by ring, ?_⟩
      refine List.cons_eq_cons.mpr ⟨by ring, ?_⟩
      refine List.cons_eq_cons.mpr ⟨by field_simp, ?_⟩
      refine List.cons_eq_cons.mpr ⟨by field_simp, ?_⟩
      refine List.cons_eq_cons.mpr ⟨by field_simp, ?_⟩
      refine List.cons_eq_cons.mpr ⟨by field_simp, ?_⟩
      refine List.cons_eq_cons.mpr ⟨by field_simp, rfl⟩

theorem columns_length (c : Cfg) (nu : ℕ) : (columns c nu).length = total c nu := by
  unfold columns total
  cases c.sr <;> cases c.adiabatic <;> cases c.mhd <;> cases c.selfg <;> cases c.cyl <;> simp <;> omega

/-- **C58**: the labels of the first dump name the columns, in their order. -/
theorem history_labels (c : Cfg) (nu : ℕ) (usr : ℕ → String) :
    labels c nu usr = (columns c nu).map (HCol.label usr) := by
  have hu : ((List.range nu).map .user : List HCol).map (HCol.label usr) = (List.range nu).map usr := by
    rw [List.map_map]; rfl
  have hs : ((List.range c.nscal).map .scalar : List HCol).map (HCol.label usr) =
      (List.range c.nscal).map fun n => "scalar " ++ toString n := by
    rw [List.map_map]; rfl
  unfold labels columns
  rw [List.map_append, List.map_append, hu]
  congr 2
  cases c.sr
  · simp only [Bool.false_eq_true, if_false, List.map_append, hs]
    cases c.adiabatic <;> cases c.mhd <;> cases c.selfg <;> cases c.cyl <;> rfl
  · cases c.mhd <;> rfl

/-! ## Sums over Grids -/

omit [LinearOrder K] [IsStrictOrderedRing K] in
theorem sum_to (N NG m : ℕ) (f : ℕ → K) :
    ∑ l ∈ Finset.range m, ∑ i ∈ Finset.range (gridNx N NG l), f (gridDisp 0 N NG l + i) =
      ∑ i ∈ Finset.range (gridDisp 0 N NG m), f i := by
  induction m with
  | zero => simp [gridDisp]
  | succ m ih => rw [Finset.sum_range_succ, ih, gridDisp, Finset.sum_range_add]

omit [LinearOrder K] [IsStrictOrderedRing K] in
theorem sum_blocks (N NG : ℕ) (h : 1 ≤ NG) (f : ℕ → K) :
    ∑ l ∈ Finset.range NG, ∑ i ∈ Finset.range (gridNx N NG l), f (gridDisp 0 N NG l + i) =
      ∑ i ∈ Finset.range N, f i := by
  rw [sum_to, gridDisp_total 0 N NG h, Nat.zero_add]

omit [IsStrictOrderedRing K] in
/-- The sum over the Grids is the sum over the Domain. -/
theorem reduced_eq (c : Cfg) (nu : ℕ) (D : HDom K) (s : Split) (hs : ∀ a, 1 ≤ s.ng a ∧ s.ng a ≤ D.nx a) (n : ℕ) :
    reduced c nu D s n = D.sum fun i j k => dVol c D.dx (D.r i) *
      ((zoneVals c nu (D.uf i j k) (D.r i) (D.u i j k))[n - 2]?).getD 0 := by
  have hm (a : Fin 3) (l : ℕ) : max (gridNx (D.nx a) (s.ng a) l) 1 = gridNx (D.nx a) (s.ng a) l :=
    max_eq_left ((grids_sizes 0 (D.nx a) (s.ng a) (hs a).1).2.2.1 (hs a).2 l)
  unfold reduced gridSum HDom.sum
  simp only [Matrix.cons_val_zero, Matrix.cons_val_one, Matrix.cons_val, hm]
  rw [← sum_blocks (D.nx 2) (s.ng 2) (hs 2).1]
  refine Finset.sum_congr rfl fun g2 _ => ?_
  rw [Finset.sum_congr rfl fun g1 _ => Finset.sum_comm (s := Finset.range (s.ng 0)), Finset.sum_comm]
  refine Finset.sum_congr rfl fun k _ => ?_
  rw [← sum_blocks (D.nx 1) (s.ng 1) (hs 1).1]
  refine Finset.sum_congr rfl fun g1 _ => ?_
  rw [Finset.sum_comm]
  refine Finset.sum_congr rfl fun j _ => ?_
  rw [← sum_blocks (D.nx 0) (s.ng 0) (hs 0).1]

theorem dVol_vol (c : Cfg) (D : HDom K) (h : D.Proper) (i : ℕ) : dVol c D.dx (D.r i) = D.vol c i := by
  unfold dVol HDom.vol HDom.r
  simp only [gt_iff_lt, h.dx, if_true]
  cases c.cyl
  · simp
  · simp only [if_true]; ring

omit [IsStrictOrderedRing K] in
theorem sum_range_one (n : ℕ) (a : K) : ∑ _i ∈ Finset.range n, a = n * a := by
  rw [Finset.sum_const, Finset.card_range, nsmul_eq_mul]

theorem ring_vol (m d : K) (n : ℕ) :
    ∑ i ∈ Finset.range n, ((m + ((i : K) + 1) * d) ^ 2 - (m + i * d) ^ 2) / 2 =
      1 / 2 * ((m + n * d) * (m + n * d) - m * m) := by
  induction n with
  | zero => simp
  | succ n ih => rw [Finset.sum_range_succ, ih]; push_cast; ring

/-- The extents of the directions with one zone. -/
def extent (D : HDom K) : K := (if D.nx 1 > 1 then 1 else D.dx 1) * (if D.nx 2 > 1 then 1 else D.dx 2)

theorem sum_vol (c : Cfg) (D : HDom K) (h : D.Proper) :
    D.sum (fun i _ _ => D.vol c i) = domVol c D * extent D := by
  have h1 := h.nx 1
  have h2 := h.nx 2
  unfold HDom.sum HDom.vol domVol extent
  simp only [← Finset.sum_mul]
  rw [sum_range_one, sum_range_one]
  have e : ∑ i ∈ Finset.range (D.nx 0), (if c.cyl = true then
      ((D.minX 0 + ((i : K) + 1) * D.dx 0) ^ 2 - (D.minX 0 + i * D.dx 0) ^ 2) / 2 else D.dx 0) =
      if c.cyl = true then 1 / 2 * ((D.minX 0 + D.nx 0 * D.dx 0) * (D.minX 0 + D.nx 0 * D.dx 0) -
        D.minX 0 * D.minX 0) else D.minX 0 + D.nx 0 * D.dx 0 - D.minX 0 := by
    split_ifs
    · exact ring_vol _ _ _
    · rw [sum_range_one]; ring
  rw [e]
  have o (a : Fin 3) (ha : ¬ D.nx a > 1) (hp : 0 < D.nx a) : D.nx a = 1 := by omega
  split_ifs with a b b d a b b
  all_goals first
    | ring1
    | (have q := o 2 ‹_› h2; rw [q]; push_cast; ring1)
    | (have q := o 1 ‹_› h1; rw [q]; push_cast; ring1)
    | (have q := o 1 ‹_› h1; have q' := o 2 ‹_› h2; rw [q, q']; push_cast; ring1)

theorem vol_pos (c : Cfg) (D : HDom K) (h : D.Proper) (hr : c.cyl = true → 0 ≤ D.minX 0) (i : ℕ) : 0 < D.vol c i := by
  have h0 := h.dx 0
  have h1 := h.dx 1
  have h2 := h.dx 2
  have hi : (0 : K) ≤ i := Nat.cast_nonneg i
  unfold HDom.vol
  refine mul_pos (mul_pos ?_ h1) h2
  split_ifs with hc
  · have hm := hr hc
    have : 0 < D.dx 0 * (2 * D.minX 0 + (2 * i + 1) * D.dx 0) := by positivity
    linarith [this, show ((D.minX 0 + ((i : K) + 1) * D.dx 0) ^ 2 - (D.minX 0 + i * D.dx 0) ^ 2) =
      D.dx 0 * (2 * D.minX 0 + (2 * i + 1) * D.dx 0) by ring]
  · exact h0

theorem extent_pos (D : HDom K) (h : D.Proper) : 0 < extent D := by
  unfold extent
  have h1 := h.dx 1
  have h2 := h.dx 2
  split_ifs <;> positivity

theorem sum_vol_pos (c : Cfg) (D : HDom K) (h : D.Proper) (hr : c.cyl = true → 0 ≤ D.minX 0) :
    0 < D.sum (fun i _ _ => D.vol c i) := by
  unfold HDom.sum
  have n0 : (Finset.range (D.nx 0)).Nonempty := Finset.nonempty_range_iff.mpr (h.nx 0).ne'
  have n1 : (Finset.range (D.nx 1)).Nonempty := Finset.nonempty_range_iff.mpr (h.nx 1).ne'
  have n2 : (Finset.range (D.nx 2)).Nonempty := Finset.nonempty_range_iff.mpr (h.nx 2).ne'
  exact Finset.sum_pos (fun _ _ => Finset.sum_pos (fun _ _ => Finset.sum_pos (fun i _ => vol_pos c D h hr i) n0) n1) n2

/-- What a line of the history should hold: the time, the step, and for every other column `f` times its average. -/
def expected (c : Cfg) (nu : ℕ) (time dt f : K) (D : HDom K) : List K :=
  (columns c nu).map fun col => match col with
    | .time => time
    | .dt => dt
    | col => f * D.average c col

theorem columns_eq (c : Cfg) (nu : ℕ) : columns c nu = .time :: .dt :: (columns c nu).drop 2 := by
  unfold columns; rfl

theorem columns_rest (c : Cfg) (nu : ℕ) (col : HCol) (h : col ∈ (columns c nu).drop 2) : col ≠ .time ∧ col ≠ .dt := by
  unfold columns at h
  simp only [List.cons_append, List.nil_append, List.drop_succ_cons, List.drop_zero] at h
  constructor <;> rintro rfl <;> revert h <;>
    cases c.sr <;> cases c.adiabatic <;> cases c.mhd <;> cases c.selfg <;> cases c.cyl <;> simp

/-- **C58**: whatever the decomposition, a line of the history holds the time, the step and the volume averages of the
documented columns, times the extent of the Domain in the directions with a single zone. -/
theorem history_line (c : Cfg) (nu : ℕ) (time dt : K) (D : HDom K) (s : Split) (h : D.Proper)
    (hr : c.cyl = true → 0 ≤ D.minX 0) (hs : ∀ a, 1 ≤ s.ng a ∧ s.ng a ≤ D.nx a) (hf : total c nu ≤ scalSize c) :
    line c nu time dt D s = .ok (expected c nu time dt (extent D) D) := by
  unfold line expected
  rw [if_pos hf]
  congr 1
  rw [columns_eq, List.map_cons, List.map_cons]
  simp only [List.cons_append, List.nil_append]
  congr 2
  have hl : total c nu - 2 = ((columns c nu).drop 2).length := by rw [List.length_drop, columns_length]
  apply List.ext_getElem
  · rw [List.length_map, List.length_range, List.length_map, hl]
  · intro n h1 h2
    rw [List.length_map, List.length_range] at h1
    rw [List.length_map] at h2
    rw [List.getElem_map, List.getElem_range, List.getElem_map]
    generalize hcol : ((columns c nu).drop 2)[n] = col
    have hne := columns_rest c nu col (hcol ▸ List.getElem_mem h2)
    have e : reduced c nu D s (n + 2) =
        D.sum fun i j k => D.vol c i * col.dens (D.uf i j k) (D.r i) (D.u i j k) := by
      rw [reduced_eq c nu D s hs]
      unfold HDom.sum
      refine Finset.sum_congr rfl fun k _ => Finset.sum_congr rfl fun j _ => Finset.sum_congr rfl fun i _ => ?_
      dsimp only
      rw [dVol_vol c D h, zoneVals_dens _ _ _ _ _ (h.d i j k) (h.wd i j k), Nat.add_sub_cancel,
        List.getElem?_map, List.getElem?_eq_getElem h2, hcol]
      rfl
    have hp := sum_vol_pos c D h hr
    have he := (extent_pos D h).ne'
    have hv : domVol c D ≠ 0 := by
      intro h0
      rw [sum_vol c D h, h0, zero_mul] at hp
      exact lt_irrefl _ hp
    have goal : reduced c nu D s (n + 2) / domVol c D = extent D * D.average c col := by
      rw [e, HDom.average, sum_vol c D h]
      field_simp
    rw [goal]
    cases col <;> first | rfl | exact absurd rfl hne.1 | exact absurd rfl hne.2

/-- **C58** (partial): if the Domain has extent one in the directions with a single zone, the columns are the volume
averages. -/
theorem history_average_partial (c : Cfg) (nu : ℕ) (time dt : K) (D : HDom K) (s : Split) (h : D.Proper)
    (hr : c.cyl = true → 0 ≤ D.minX 0) (hs : ∀ a, 1 ≤ s.ng a ∧ s.ng a ≤ D.nx a) (hf : total c nu ≤ scalSize c)
    (he : ∀ a, a ≠ 0 → D.nx a = 1 → D.dx a = 1) :
    line c nu time dt D s = .ok (expected c nu time dt 1 D) := by
  rw [history_line c nu time dt D s h hr hs hf]
  have : extent D = 1 := by
    unfold extent
    have o (a : Fin 3) (ha : ¬ D.nx a > 1) : D.nx a = 1 := by have := h.nx a; omega
    split_ifs with a b b
    · simp
    · rw [he 2 (by decide) (o 2 b)]; simp
    · rw [he 1 (by decide) (o 1 a)]; simp
    · rw [he 1 (by decide) (o 1 a), he 2 (by decide) (o 2 b)]; simp
  rw [this]

/-- **C58**: multiplied by the volume given in the file's first line, a column is the integral over the Domain. -/
theorem history_integral (c : Cfg) (D : HDom K) (h : D.Proper) (hr : c.cyl = true → 0 ≤ D.minX 0) (col : HCol) :
    extent D * D.average c col * domVol c D =
      D.sum fun i j k => D.vol c i * col.dens (D.uf i j k) (D.r i) (D.u i j k) := by
  have hp := (sum_vol_pos c D h hr).ne'
  rw [show extent D * D.average c col * domVol c D = D.average c col * (domVol c D * extent D) by ring,
    ← sum_vol c D h, HDom.average, div_mul_cancel₀ _ hp]

/-! ## Room for the columns -/

/-- **C58**: without special relativity the array has room for all columns, however many were enrolled. -/
theorem history_fits (c : Cfg) (usr : List String) (lab : List String) (h : enrollAll [] usr = .ok lab)
    (hsr : c.sr = false) (hc : ¬ (c.selfg = true ∧ c.cyl = true)) : lab = usr ∧ total c lab.length ≤ scalSize c := by
  have key : ∀ (us l l' : List String), enrollAll l us = .ok l' → l.length ≤ 30 → l' = l ++ us ∧ l'.length ≤ 30 := by
    intro us
    induction us with
    | nil => intro l l' h hl; simp only [enrollAll, Res.ok.injEq] at h; subst h; simp [hl]
    | cons u us ih =>
      intro l l' h hl
      simp only [enrollAll, enroll] at h
      by_cases hb : l.length ≥ 30
      · rw [if_pos hb] at h; exact absurd h (by simp)
      · rw [if_neg hb] at h
        have := ih _ _ h (by simp; omega)
        rw [List.append_assoc] at this
        exact this
  obtain ⟨e, hl⟩ := key usr [] lab h (by simp)
  refine ⟨by simpa using e, ?_⟩
  unfold total scalSize
  rw [hsr]
  revert hc
  cases c.selfg <;> cases c.cyl <;> cases c.adiabatic <;> cases c.mhd <;> simp <;> omega

/-- **C58** is false with special relativity and magnetic fields: 27 enrolled columns are accepted but do not fit into
the array. -/
theorem history_fits_false : ∃ (c : Cfg) (lab : List String), c.sr = true ∧
    enrollAll [] (List.replicate 27 "user") = .ok lab ∧
    ∀ (time dt : ℚ) (D : HDom ℚ) (s : Split), line c lab.length time dt D s = .ub := by
  refine ⟨⟨true, true, false, false, true, 0⟩, List.replicate 27 "user", rfl, by decide, ?_⟩
  intro time dt D s
  unfold line
  exact if_neg (by simp [total, scalSize])

/-! ## Who writes -/

theorem writers_aux (ids : List ℕ) (n : ℕ) (h : 0 ∉ ids) :
    ((ids.zipIdx (n + 1)).filter fun x => x.2 = 0 ∨ x.1 = 0) = [] := by
  induction ids generalizing n with
  | nil => rfl
  | cons a l ih =>
    rw [List.mem_cons, not_or] at h
    rw [List.zipIdx_cons, List.filter_cons, if_neg, ih _ h.2]
    simp only [decide_eq_true_eq, not_or]
    exact ⟨by omega, Ne.symm h.1⟩

/-- **C58** (partial): one process writes a line for a Domain if process 0 has no Grid of it but the first. -/
theorem history_one_line_partial (r : ℕ) (ids : List ℕ) (h : 0 ∉ ids) : writers (r :: ids) = [r] := by
  unfold writers
  rw [List.zipIdx_cons, List.filter_cons, if_pos (by simp)]
  have := writers_aux ids 0 h
  rw [this]
  rfl

/-- **C58**: the root Domain's line is written by one process. -/
theorem history_one_line_root (P cnt : ℕ) (rest : List ℕ) (ids : List ℕ) (more : List (List ℕ)) (hc : 0 < cnt)
    (h : assignAll P (cnt :: rest) = .ok (ids :: more)) : writers ids = [0] := by
  obtain ⟨m, rfl⟩ : ∃ m, cnt = m + 1 := ⟨cnt - 1, by omega⟩
  have hp : m + 1 ≤ P ∧ (assignIDs P (m + 1) 0).1 = ids := by
    unfold assignAll at h
    simp only [assignDomains] at h
    by_cases hb : m + 1 > P
    · rw [if_pos hb] at h; exact absurd h (by simp)
    · rw [if_neg hb] at h
      refine ⟨by omega, ?_⟩
      cases hd : assignDomains P rest (assignIDs P (m + 1) 0).2 with
      | ok x =>
        obtain ⟨i, nx⟩ := x
        rw [hd] at h
        dsimp only at h
        split_ifs at h
        simp only [Res.ok.injEq, List.cons.injEq] at h
        exact h.1
      | fatal => rw [hd] at h; exact absurd h (by simp)
      | ub => rw [hd] at h; exact absurd h (by simp)
  have key : ∀ (m n : ℕ), 0 < n → n + m ≤ P → 0 ∉ (assignIDs P m n).1 := by
    intro m
    induction m with
    | zero => intro n _ _; simp [assignIDs]
    | succ m ih =>
      intro n hn hm
      rw [assignIDs]
      dsimp only
      rw [List.mem_cons, not_or]
      refine ⟨hn.ne, ?_⟩
      cases m with
      | zero => simp [assignIDs]
      | succ m =>
        rw [if_neg (by omega)]
        exact ih (n + 1) (by omega) (by omega)
  rw [← hp.2, assignIDs]
  dsimp only
  apply history_one_line_partial
  cases m with
  | zero => simp [assignIDs]
  | succ m =>
    rw [if_neg (by omega)]
    exact key _ _ (by omega) (by omega)

/-- **C58** is false on refined Domains: with three processes and three Domains of two Grids each, the second Domain's
Grids belong to processes 2 and 0, and both write a line. -/
theorem history_one_line_false : ∃ ids, assignAll 3 [2, 2, 2] = .ok [[0, 1], ids, [1, 2]] ∧ writers ids = [2, 0] :=
  ⟨[2, 0], by decide, by decide⟩

/-! ## A concrete Domain -/

/-- Eight by four zones; `x3` has extent `w`. -/
def exH (w : ℚ) : HDom ℚ where
  nx := ![8, 4, 1]
  minX := ![1, 0, 0]
  dx := ![1 / 8, 1 / 4, w]
  u := fun i j _ => ⟨1 + i, ![1, j, 0], 3, ![0, 1, 0], 0, fun _ => 1, 1, ![0, 0, 0], 1⟩
  uf := fun i _ _ _ => i

theorem exH_proper (w : ℚ) (hw : 0 < w) : (exH w).Proper where
  nx a := by fin_cases a <;> simp [exH]
  dx a := by
    fin_cases a
    · show (0 : ℚ) < 1 / 8; norm_num
    · show (0 : ℚ) < 1 / 4; norm_num
    · exact hw
  d i j k := by show (1 : ℚ) + i ≠ 0; positivity
  wd i j k := one_ne_zero

/-- Hypotheses of `history_average_partial`: two by three Grids, cylindrical coordinates. -/
example (time dt : ℚ) : line ⟨true, true, false, true, false, 2⟩ 1 time dt (exH 1) ⟨![2, 3, 1]⟩ =
    .ok (expected ⟨true, true, false, true, false, 2⟩ 1 time dt 1 (exH 1)) :=
  history_average_partial _ 1 time dt (exH 1) _ (exH_proper 1 one_pos) (fun _ => by show (0 : ℚ) ≤ 1; norm_num)
    (fun a => by fin_cases a <;> decide) (by decide) (fun a ha h => by
      fin_cases a
      · exact absurd rfl ha
      · exact absurd h (by decide)
      · rfl)

/-- **C58** is false in general: if the Domain has extent 2 in a direction with a single zone, the "mass" column is
twice the mean density. -/
theorem history_average_false : ∃ (c : Cfg) (D : HDom ℚ) (s : Split), D.Proper ∧
    ∀ (nu : ℕ) (time dt : ℚ), total c nu ≤ scalSize c →
      ∃ l, line c nu time dt D s = .ok l ∧ l[2]? = some (2 * D.average c .mass) ∧ D.average c .mass ≠ 0 := by
  refine ⟨⟨true, false, false, false, false, 0⟩, exH 2, ⟨![1, 1, 1]⟩, exH_proper 2 two_pos, fun nu time dt hf => ?_⟩
  refine ⟨_, history_line _ nu time dt _ _ (exH_proper 2 two_pos) (fun h => absurd h (by decide))
    (fun a => by fin_cases a <;> decide) hf, ?_, ?_⟩
  · have : extent (exH 2) = 2 := by
      unfold extent
      rw [if_pos (show (exH 2).nx 1 > 1 by decide), if_neg (show ¬ (exH 2).nx 2 > 1 by decide)]
      exact one_mul 2
    rw [this]
    rfl
  · have hp : 0 < (exH 2).sum (fun i _ _ => (exH 2).vol ⟨true, false, false, false, false, 0⟩ i) :=
      sum_vol_pos _ _ (exH_proper 2 two_pos) (fun h => absurd h (by decide))
    refine div_ne_zero ?_ hp.ne'
    have hq : 0 < (exH 2).sum (fun i j k => (exH 2).vol ⟨true, false, false, false, false, 0⟩ i *
        HCol.mass.dens ((exH 2).uf i j k) ((exH 2).r i) ((exH 2).u i j k)) := by
      unfold HDom.sum
      have hv := vol_pos ⟨true, false, false, false, false, 0⟩ (exH 2) (exH_proper 2 two_pos)
        (fun h => absurd h (by decide))
      refine Finset.sum_pos (fun _ _ => Finset.sum_pos (fun _ _ => Finset.sum_pos (fun i _ => ?_) ?_) ?_) ?_
      · refine mul_pos (hv i) ?_
        show (0 : ℚ) < 1 + i
        positivity
      · exact ⟨0, by decide⟩
      · exact ⟨0, by decide⟩
      · exact ⟨0, by decide⟩
    exact hq.ne'

end Athena.Hist
