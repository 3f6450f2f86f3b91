import Verif.Join.Ex

/-!
# src/dump_binary.c and vis/matlab/join_bin/join_bin.c

Binary dumps written by the processes of a run, and the program that joins them.  A number in the data is eight bytes (`double`, as join_bin.c:26 has it);
the numbers of the header and the coordinates are taken as the values that they stand for.  The order of the files is found as in join_vtk (`sortBy`),
and the loops over rows are those of `readRows`.

* `joinbin_exact`: what the joined file holds, for every decomposition, order of the files and values.
* `joinbin_whole_partial`: this is the file of a run on one process, if there is neither self-gravity nor particle data.
* `joinbin_gravity_false`: with self-gravity the potential is lost, though the header says that it is there.
* `joinbin_check_false`: the check that the files belong together accepts all files.
-/

namespace Athena.JoinBin

open Athena.Join

/-- A binary dump: dump_binary.c:112-154 (header), 173-192 (coordinates), 196-256 (data). -/
structure BFile where
  coord : ℤ
  nx : ℕ
  ny : ℕ
  nz : ℕ
  nvar : ℕ
  nscal : ℕ
  grav : Bool
  part : Bool
  g1 : ℝ
  cs : ℝ
  time : ℝ
  dt : ℝ
  xs : List ℝ
  ys : List ℝ
  zs : List ℝ
  body : List Byte

noncomputable instance : Inhabited BFile := ⟨⟨0, 0, 0, 0, 0, 0, false, false, 0, 0, 0, 0, [], [], [], []⟩⟩

/-- The data written: NVAR variables (dump_binary.c:196-212), then the potential and the binned particles, if there are any (:214-256). -/
def dumpVars (nz ny nx nvar : ℕ) (val : ℕ → ℕ → ℕ → ℕ → List Byte) (extra : List (ℕ → ℕ → ℕ → List Byte)) : List Byte :=
  (cat nvar fun n => dumpData nz ny nx (val n)) ++ extra.flatMap (dumpData nz ny nx)

/-- The coordinates of the cell centres, dump_binary.c:173-192. -/
noncomputable def dumpCoord (n : ℕ) (x : ℕ → ℝ) : List ℝ := (List.range n).map x

/-! ## join_bin -/

/-- `init_domain_1d` for one file, join_bin.c:205-264.  A file without zones has no first coordinate to sort by. -/
def initBin (f : BFile) : Res BFile :=
  if f.coord ≠ -1 ∧ f.coord ≠ -2 ∧ f.coord ≠ -3 then .fatal
  else if f.nx = 0 ∨ f.ny = 0 ∨ f.nz = 0 then .ub
  else .ok f

/-- `init_domain_1d`, join_bin.c:205-264. -/
def initBins : List BFile → Res (List BFile)
  | [] => .ok []
  | f :: l => match initBin f with
    | .ok f => match initBins l with
      | .ok l => .ok (f :: l)
      | .fatal => .fatal
      | .ub => .ub
    | .fatal => .fatal
    | .ub => .ub

/-- The keys of join_bin.c:301-322. -/
noncomputable def xmin (f : BFile) : ℝ := f.xs.getD 0 0
/-- See `xmin`. -/
noncomputable def ymin (f : BFile) : ℝ := f.ys.getD 0 0
/-- See `xmin`. -/
noncomputable def zmin (f : BFile) : ℝ := f.zs.getD 0 0

/-- `chek_domain_3d`, join_bin.c:267-295: `warn_flag`, which starts from zero. -/
noncomputable def warnFlag (N : Idx → BFile) (nX nY nZ : ℕ) : Bool :=
  (places nX nY nZ).foldl (fun w x =>
    let w := w && ((N x).coord == (N (0, 0, 0)).coord)
    let w := w && ((N x).nvar == (N (0, 0, 0)).nvar)
    let w := w && ((N x).nscal == (N (0, 0, 0)).nscal)
    let w := w && ((N x).grav == (N (0, 0, 0)).grav)
    let w := w && ((N x).part == (N (0, 0, 0)).part)
    let w := w && open Classical in decide ((N x).g1 = (N (0, 0, 0)).g1)
    let w := w && open Classical in decide ((N x).cs = (N (0, 0, 0)).cs)
    let w := w && open Classical in decide ((N x).time = (N (0, 0, 0)).time)
    w && open Classical in decide ((N x).dt = (N (0, 0, 0)).dt)) false

/-- What the loops over rows use of a file. -/
def toDom (f : BFile) : Dom := ⟨⟨⟨[], (0, 0, 0), 0, 0, 0, 0, 0, 0, 0⟩, f.body⟩, f.nx, f.ny, f.nz⟩

/-- The loop over `m` variables, join_bin.c:465-485.  The code reads one number at a time; a file that ends within a row ends the program in both cases. -/
def joinVarsBin (N : Idx → Dom) (nX nY nZ : ℕ) : ℕ → (Idx → ℕ) → List Byte → Res (List Byte)
  | 0, _, out => .ok out
  | m + 1, pos, out => match readRows N 8 (visits N nX nY nZ) (pos, out) with
    | .ok (pos, out) => joinVarsBin N nX nY nZ m pos out
    | .fatal => .fatal
    | .ub => .ub

/-- `main` and `write_joined_bin`, join_bin.c:62-167 and 408-488; two files at least (`argc < 5`). -/
noncomputable def joinBin (Q : QsortOf BFile) (fs : List BFile) : Res BFile :=
  if fs.length < 2 then .fatal else
  match initBins fs with
  | .fatal => .fatal
  | .ub => .ub
  | .ok ds => match sortBy Q xmin ymin zmin ds with
    | .fatal => .fatal
    | .ub => .ub
    | .ok (l, nX, nY, nZ) =>
      let N := fill l nX nY
      if warnFlag N nX nY nZ then .fatal else
      let h := N (0, 0, 0)
      match joinVarsBin (fun x => toDom (N x)) nX nY nZ h.nvar (fun _ => 0) [] with
      | .ok body => .ok { h with
          nx := total (fun i => (N (0, 0, i)).nx) nX
          ny := total (fun j => (N (0, j, 0)).ny) nY
          nz := total (fun k => (N (k, 0, 0)).nz) nZ
          xs := cat nX fun i => (N (0, 0, i)).xs.take (N (0, 0, i)).nx
          ys := cat nY fun j => (N (0, j, 0)).ys.take (N (0, j, 0)).ny
          zs := cat nZ fun k => (N (k, 0, 0)).zs.take (N (k, 0, 0)).nz
          body := body }
      | .fatal => .fatal
      | .ub => .ub

/-! ## Specification -/

/-- The run: numbers of zones of the Grids along each direction, the coordinates and values on the whole Domain, and the header.  The time may differ
between the files. -/
structure Run where
  nX : ℕ
  nY : ℕ
  nZ : ℕ
  Nx : ℕ → ℕ
  Ny : ℕ → ℕ
  Nz : ℕ → ℕ
  coord : ℤ
  nvar : ℕ
  nscal : ℕ
  grav : Bool
  part : Bool
  g1 : ℝ
  cs : ℝ
  dt : ℝ
  time : ℕ → ℕ → ℕ → ℝ
  x : ℕ → ℝ
  y : ℕ → ℝ
  z : ℕ → ℝ
  val : ℕ → ℕ → ℕ → ℕ → List Byte
  extra : List (ℕ → ℕ → ℕ → List Byte)

/-- The file written by the process of Grid `(k, j, i)`. -/
noncomputable def Run.gridFile (r : Run) (k j i : ℕ) : BFile :=
  ⟨r.coord, r.Nx i, r.Ny j, r.Nz k, r.nvar, r.nscal, r.grav, r.part, r.g1, r.cs, r.time k j i, r.dt,
    dumpCoord (r.Nx i) (fun a => r.x (total r.Nx i + a)), dumpCoord (r.Ny j) (fun a => r.y (total r.Ny j + a)),
    dumpCoord (r.Nz k) (fun a => r.z (total r.Nz k + a)),
    dumpVars (r.Nz k) (r.Ny j) (r.Nx i) r.nvar (fun n c b a => r.val n (total r.Nz k + c) (total r.Ny j + b) (total r.Nx i + a))
      (r.extra.map fun v c b a => v (total r.Nz k + c) (total r.Ny j + b) (total r.Nx i + a))⟩

/-- The file of a run on one process, with the fields `extra` after the variables. -/
noncomputable def Run.wholeWith (r : Run) (extra : List (ℕ → ℕ → ℕ → List Byte)) : BFile :=
  ⟨r.coord, total r.Nx r.nX, total r.Ny r.nY, total r.Nz r.nZ, r.nvar, r.nscal, r.grav, r.part, r.g1, r.cs, r.time 0 0 0, r.dt,
    dumpCoord (total r.Nx r.nX) r.x, dumpCoord (total r.Ny r.nY) r.y, dumpCoord (total r.Nz r.nZ) r.z,
    dumpVars (total r.Nz r.nZ) (total r.Ny r.nY) (total r.Nx r.nX) r.nvar r.val extra⟩

/-- The file of a run on one process. -/
noncomputable def Run.wholeFile (r : Run) : BFile := r.wholeWith r.extra

/-- The files of all processes. -/
noncomputable def Run.files (r : Run) : List BFile := inOrder r.gridFile r.nX r.nY r.nZ

/-- At least two Grids, each of at least one zone; coordinates that increase; eight bytes for a number. -/
structure Run.Good (r : Run) : Prop where
  nX : 0 < r.nX
  nY : 0 < r.nY
  nZ : 0 < r.nZ
  two : 2 ≤ r.nZ * (r.nY * r.nX)
  Nx : ∀ i, 0 < r.Nx i
  Ny : ∀ j, 0 < r.Ny j
  Nz : ∀ k, 0 < r.Nz k
  coord : r.coord = -1 ∨ r.coord = -2 ∨ r.coord = -3
  x : ∀ i j, i < j → r.x i < r.x j
  y : ∀ i j, i < j → r.y i < r.y j
  z : ∀ i j, i < j → r.z i < r.z j
  val : ∀ n k j i, (r.val n k j i).length = 8

/-! ## Lemmas -/

theorem warnFlag_false (N : Idx → BFile) (nX nY nZ : ℕ) : warnFlag N nX nY nZ = false := by
  unfold warnFlag
  induction places nX nY nZ with
  | nil => rfl
  | cons x l ih => rw [List.foldl_cons]; simpa using ih

theorem initBins_ok : ∀ {fs : List BFile}, (∀ f ∈ fs, initBin f = .ok f) → initBins fs = .ok fs
  | [], _ => rfl
  | f :: fs, h => by
    rw [initBins, h f (List.mem_cons_self ..)]
    dsimp only
    rw [initBins_ok fun g hg => h g (List.mem_cons_of_mem _ hg)]

theorem joinVarsBin_ok (N : Idx → Dom) {nX nY nZ : ℕ} (hX : 0 < nX) (hY : 0 < nY) (hZ : 0 < nZ) {Nx Ny Nz : ℕ → ℕ} (hN : Fits N nX nY nZ Nx Ny Nz)
    (nvar : ℕ) (val : ℕ → ℕ → ℕ → ℕ → List Byte) (hv : ∀ n k j i, (val n k j i).length = 8) (post : Idx → List Byte)
    (hbody : ∀ k j i, k < nZ → j < nY → i < nX → (N (k, j, i)).file.body =
      (cat nvar fun n => dumpData (Nz k) (Ny j) (Nx i) fun c b a => val n (total Nz k + c) (total Ny j + b) (total Nx i + a)) ++ post (k, j, i)) :
    ∀ (m n : ℕ), n + m = nvar → ∀ (pos : Idx → ℕ) (out : List Byte), (∀ k j i, k < nZ → j < nY → i < nX → pos (k, j, i) =
      (cat n fun n => dumpData (Nz k) (Ny j) (Nx i) fun c b a => val n (total Nz k + c) (total Ny j + b) (total Nx i + a)).length) →
    joinVarsBin N nX nY nZ m pos out = .ok (out ++ cat m fun q => dumpData (total Nz nZ) (total Ny nY) (total Nx nX) (val (n + q))) := by
  intro m
  induction m with
  | zero => intro n hn pos out hp; simp [joinVarsBin, cat]
  | succ m ih =>
    intro n hn pos out hp
    obtain ⟨pos', h1, h2⟩ := readRows_data N hX hY hZ hN 8 (val n) (hv n)
      (fun x => cat n fun n => dumpData (Nz x.1) (Ny x.2.1) (Nx x.2.2) fun c b a => val n (total Nz x.1 + c) (total Ny x.2.1 + b) (total Nx x.2.2 + a))
      (fun x => (cat m fun q => dumpData (Nz x.1) (Ny x.2.1) (Nx x.2.2) fun c b a =>
        val (n + 1 + q) (total Nz x.1 + c) (total Ny x.2.1 + b) (total Nx x.2.2 + a)) ++ post x)
      (by
        intro k j i hk hj hi
        rw [hbody k j i hk hj hi, ← hn, show n + (m + 1) = (n + 1) + m by omega, cat_add, cat_succ]
        simp only [List.append_assoc])
      pos (fun x hx => hp x.1 x.2.1 x.2.2 hx.1 hx.2.1 hx.2.2) out
    rw [joinVarsBin, h1]
    dsimp only
    rw [ih (n + 1) (by omega) pos' _ (fun k j i hk hj hi => by rw [h2 k j i hk hj hi, cat_succ, List.length_append]), cat_succ', List.append_assoc,
      Nat.add_zero]
    congr 3
    refine cat_congr fun q _ => ?_
    rw [show n + 1 + q = n + (q + 1) by omega]

theorem dumpCoord_total (N : ℕ → ℕ) (G : ℕ) (x : ℕ → ℝ) :
    dumpCoord (total N G) x = cat G fun g => (dumpCoord (N g) fun a => x (total N g + a)).take (N g) := by
  have e : ∀ n (f : ℕ → ℝ), dumpCoord n f = cat n fun a => [f a] := by
    intro n f
    simp [dumpCoord, cat, List.flatMap_singleton']
    induction List.range n with
    | nil => rfl
    | cons a l ih => simp [ih]
  rw [e, cat_total]
  refine cat_congr fun g _ => ?_
  rw [List.take_of_length_le (by simp [dumpCoord]), e]

theorem dumpCoord_first {n : ℕ} (h : 0 < n) (x : ℕ → ℝ) : (dumpCoord n x).getD 0 0 = x 0 := by
  obtain ⟨n, rfl⟩ : ∃ m, n = m + 1 := ⟨n - 1, by omega⟩
  simp [dumpCoord, List.range_succ_eq_map]

theorem total_lt {N : ℕ → ℕ} (h : ∀ i, 0 < N i) (i : ℕ) : total N i < total N (i + 1) := by
  rw [total]; have := h i; omega

/-! ## Properties -/

/-- **What the joined file holds.**  Whatever the decomposition, the order of the files on the command line, what `qsort` does with equal keys, and the
values: the header and the coordinates are those of a run on one process, with the time of the first Grid; the data are the variables of the
whole Domain in the order of that run - without anything that follows the variables in the files. -/
theorem joinbin_exact (Q : QsortOf BFile) (r : Run) (hr : r.Good) {fs : List BFile} (hfs : fs.Perm r.files) : joinBin Q fs = .ok (r.wholeWith []) := by
  have hmem : ∀ f ∈ fs, ∃ k j i, f = r.gridFile k j i := by
    intro f hf
    obtain ⟨k, _, h⟩ := List.mem_flatMap.mp (hfs.mem_iff.1 hf)
    obtain ⟨j, _, h⟩ := List.mem_flatMap.mp h
    obtain ⟨i, _, h⟩ := List.mem_flatMap.mp h
    exact ⟨k, j, i, List.mem_singleton.mp h⟩
  have hinit : initBins fs = .ok fs := initBins_ok (by
    intro f hf
    obtain ⟨k, j, i, rfl⟩ := hmem f hf
    unfold initBin
    rw [if_neg (by show ¬ (r.coord ≠ -1 ∧ r.coord ≠ -2 ∧ r.coord ≠ -3); have := hr.coord; omega),
      if_neg (by show ¬ (r.Nx i = 0 ∨ r.Ny j = 0 ∨ r.Nz k = 0); have := hr.Nx i; have := hr.Ny j; have := hr.Nz k; omega)])
  have hlen : 2 ≤ fs.length := by
    rw [hfs.length_eq]
    unfold Run.files inOrder
    rw [cat_length (c := r.nY * r.nX) fun k _ => cat_length fun j _ => by rw [cat_length (c := 1) fun i _ => rfl, Nat.mul_one]]
    exact hr.two
  have hsort := sortBy_correct Q xmin ymin zmin hr.nX hr.nY hr.nZ r.gridFile (fun i => r.x (total r.Nx i)) (fun j => r.y (total r.Ny j))
    (fun k => r.z (total r.Nz k)) (fun i _ => hr.x _ _ (total_lt hr.Nx i)) (fun i _ => hr.y _ _ (total_lt hr.Ny i))
    (fun i _ => hr.z _ _ (total_lt hr.Nz i))
    (fun k j i _ _ _ => ⟨dumpCoord_first (hr.Nx i) _, dumpCoord_first (hr.Ny j) _, dumpCoord_first (hr.Nz k) _⟩) hfs
  have hfill : ∀ k j i, k < r.nZ → j < r.nY → i < r.nX → fill (inOrder r.gridFile r.nX r.nY r.nZ) r.nX r.nY (k, j, i) = r.gridFile k j i :=
    fun k j i hk hj hi => fill_inOrder r.gridFile hk hj hi
  unfold joinBin
  rw [if_neg (by omega), hinit]
  dsimp only
  rw [hsort]
  dsimp only
  rw [warnFlag_false]
  rw [if_neg (by decide)]
  generalize hF : fill (inOrder r.gridFile r.nX r.nY r.nZ) r.nX r.nY = N at *
  have h0 := hfill 0 0 0 hr.nZ hr.nY hr.nX
  have hN : Fits (fun x => toDom (N x)) r.nX r.nY r.nZ r.Nx r.Ny r.Nz := by
    intro k j i hk hj hi
    dsimp only
    rw [hfill k j i hk hj hi]
    exact ⟨rfl, rfl, rfl⟩
  have hj := joinVarsBin_ok (fun x => toDom (N x)) hr.nX hr.nY hr.nZ hN r.nvar r.val hr.val
    (fun x => (r.extra.map fun v c b a => v (total r.Nz x.1 + c) (total r.Ny x.2.1 + b) (total r.Nx x.2.2 + a)).flatMap
      (dumpData (r.Nz x.1) (r.Ny x.2.1) (r.Nx x.2.2)))
    (by
      intro k j i hk hj hi
      dsimp only
      rw [hfill k j i hk hj hi]
      rfl)
    r.nvar 0 (by omega) (fun _ => 0) [] (fun _ _ _ _ _ _ => rfl)
  rw [show (N (0, 0, 0)).nvar = r.nvar by rw [h0]; rfl, hj]
  dsimp only
  rw [total_congr (f := fun i => (N (0, 0, i)).nx) (g := r.Nx) fun i hi => by rw [hfill 0 0 i hr.nZ hr.nY hi]; rfl,
    total_congr (f := fun j => (N (0, j, 0)).ny) (g := r.Ny) fun j hj => by rw [hfill 0 j 0 hr.nZ hj hr.nX]; rfl,
    total_congr (f := fun k => (N (k, 0, 0)).nz) (g := r.Nz) fun k hk => by rw [hfill k 0 0 hk hr.nY hr.nX]; rfl,
    cat_congr (f := fun i => (N (0, 0, i)).xs.take (N (0, 0, i)).nx) (g := fun g => (dumpCoord (r.Nx g) fun a => r.x (total r.Nx g + a)).take (r.Nx g))
      fun i hi => by rw [hfill 0 0 i hr.nZ hr.nY hi]; rfl,
    cat_congr (f := fun j => (N (0, j, 0)).ys.take (N (0, j, 0)).ny) (g := fun g => (dumpCoord (r.Ny g) fun a => r.y (total r.Ny g + a)).take (r.Ny g))
      fun j hj => by rw [hfill 0 j 0 hr.nZ hj hr.nX]; rfl,
    cat_congr (f := fun k => (N (k, 0, 0)).zs.take (N (k, 0, 0)).nz) (g := fun g => (dumpCoord (r.Nz g) fun a => r.z (total r.Nz g + a)).take (r.Nz g))
      fun k hk => by rw [hfill k 0 0 hk hr.nY hr.nX]; rfl,
    ← dumpCoord_total, ← dumpCoord_total, ← dumpCoord_total, h0]
  simp [Run.wholeWith, Run.gridFile, dumpVars]

/-- **The joined file is that of a run on one process**, if nothing follows the variables in the files.  Missing: self-gravity and particle data
(`joinbin_gravity_false`). -/
theorem joinbin_whole_partial (Q : QsortOf BFile) (r : Run) (hr : r.Good) (he : r.extra = []) {fs : List BFile} (hfs : fs.Perm r.files) :
    joinBin Q fs = .ok r.wholeFile := by
  rw [joinbin_exact Q r hr hfs, Run.wholeFile, he]

theorem dumpData_length (nz ny nx : ℕ) (v : ℕ → ℕ → ℕ → List Byte) (h : ∀ k j i, (v k j i).length = 8) : (dumpData nz ny nx v).length = nz * (ny * (nx * 8)) :=
  cat_length fun _ _ => cat_length fun _ _ => cat_length fun _ _ => h _ _ _

/-- With self-gravity the joined file is never that of a run on one process: its header says that there is a potential, but the potential is missing. -/
theorem joinbin_gravity_false (Q : QsortOf BFile) (r : Run) (hr : r.Good) (hg : r.grav = true) (phi : ℕ → ℕ → ℕ → List Byte) (he : r.extra = [phi])
    (hphi : ∀ k j i, (phi k j i).length = 8) {fs : List BFile} (hfs : fs.Perm r.files) :
    ∃ F, joinBin Q fs = .ok F ∧ F.grav = true ∧ F.body.length + F.nz * (F.ny * (F.nx * 8)) = r.wholeFile.body.length ∧ F ≠ r.wholeFile := by
  have hl : (r.wholeWith []).body.length + (r.wholeWith []).nz * ((r.wholeWith []).ny * ((r.wholeWith []).nx * 8)) = r.wholeFile.body.length := by
    simp only [Run.wholeFile, Run.wholeWith, dumpVars, he, List.flatMap_nil, List.flatMap_cons, List.append_nil, List.length_append]
    rw [dumpData_length _ _ _ phi hphi]
  refine ⟨_, joinbin_exact Q r hr hfs, hg, hl, ?_⟩
  intro hc
  have hp : 0 < (r.wholeWith []).nz * ((r.wholeWith []).ny * ((r.wholeWith []).nx * 8)) :=
    Nat.mul_pos (total_pos hr.Nz hr.nZ) (Nat.mul_pos (total_pos hr.Ny hr.nY) (Nat.mul_pos (total_pos hr.Nx hr.nX) (by decide)))
  rw [hc] at hl hp
  omega

/-! ## Cases -/

/-- Two Grids of 2 × 1 × 1 and 1 × 1 × 1 zones with two variables; the second Grid was written at time `t`. -/
noncomputable def case2 (t : ℝ) (g : Bool) : Run where
  nX := 2
  nY := 1
  nZ := 1
  Nx := fun i => if i = 0 then 2 else 1
  Ny := fun _ => 1
  Nz := fun _ => 1
  coord := -1
  nvar := 2
  nscal := 0
  grav := g
  part := false
  g1 := 1
  cs := 0
  dt := 1
  time := fun _ _ i => if i = 0 then 0 else t
  x := fun i => i
  y := fun i => i
  z := fun i => i
  val := fun n _ _ i => [n, i, 0, 0, 0, 0, 0, 0]
  extra := if g then [fun _ _ i => [7, i, 0, 0, 0, 0, 0, 0]] else []

theorem case2_good (t : ℝ) (g : Bool) : (case2 t g).Good where
  nX := by simp [case2]
  nY := by simp [case2]
  nZ := by simp [case2]
  two := by simp [case2]
  Nx := by intro i; simp only [case2]; split_ifs <;> omega
  Ny := by intro j; simp [case2]
  Nz := by intro k; simp [case2]
  coord := Or.inl rfl
  x := by intro i j h; simpa [case2] using h
  y := by intro i j h; simpa [case2] using h
  z := by intro i j h; simpa [case2] using h
  val := by intro n k j i; simp [case2]

/-- Non-vacuity: the files in the wrong order. -/
example (Q : QsortOf BFile) : joinBin Q [(case2 0 false).gridFile 0 0 1, (case2 0 false).gridFile 0 0 0] = .ok (case2 0 false).wholeFile :=
  joinbin_whole_partial Q _ (case2_good 0 false) rfl (List.Perm.swap _ _ [])

/-- Non-vacuity of the counterexample. -/
example (Q : QsortOf BFile) : ∃ F, joinBin Q (case2 0 true).files = .ok F ∧ F.grav = true ∧ F ≠ (case2 0 true).wholeFile := by
  obtain ⟨F, h1, h2, _, h4⟩ := joinbin_gravity_false Q _ (case2_good 0 true) rfl _ rfl (fun _ _ _ => rfl) (List.Perm.refl _)
  exact ⟨F, h1, h2, h4⟩

/-- **The check that the files belong together accepts all files**: two files of different times are joined, for every pair of times. -/
theorem joinbin_check_false (Q : QsortOf BFile) (t : ℝ) : ∃ f g F, f.time = 0 ∧ g.time = t ∧ joinBin Q [f, g] = .ok F ∧ F.time = 0 :=
  ⟨(case2 t false).gridFile 0 0 0, (case2 t false).gridFile 0 0 1, _, rfl, rfl, joinbin_exact Q _ (case2_good t false) (List.Perm.refl _), rfl⟩

end Athena.JoinBin
