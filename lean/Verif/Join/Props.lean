import Verif.Join.Read

/-!
# Joining the VTK files of a run

* `join_exact`: for every decomposition into `nX × nY × nZ` Grids of any sizes, every order of the files on the command line, every list of
  variables and every value of every byte, the joined file holds what one process would have written: the same variables in the same order,
  each followed by the data of the whole Domain, and the same header, except for `DIMENSIONS`.
* `join_dims_partial`: `DIMENSIONS` is what one process would write, if the Domain has more than one zone in each direction.
-/

namespace Athena.Join

/-! ## Specification -/

/-- A variable of the run: its name and its values, as the bytes in the file, on the whole Domain. -/
abbrev Field := Var × (ℕ → ℕ → ℕ → List Byte)

/-- A name without white space; four bytes for a number, twelve for a vector. -/
def GoodField (p : Field) : Prop := Word p.1.name ∧ ∀ k j i, (p.2 k j i).length = if p.1.vec then 12 else 4

/-- The run: numbers of zones of the Grids along each direction, the fields, and the header lines common to all Grids. -/
structure Run where
  nX : ℕ
  nY : ℕ
  nZ : ℕ
  Nx : ℕ → ℕ
  Ny : ℕ → ℕ
  Nz : ℕ → ℕ
  fields : List Field
  comment : List Byte
  X : ℕ → ℝ
  Y : ℕ → ℝ
  Z : ℕ → ℝ
  dx : ℝ
  dy : ℝ
  dz : ℝ

/-- The field as seen by a Grid whose first zone is `(k0, j0, i0)` of the Domain. -/
def shift (k0 j0 i0 : ℕ) (p : Field) : Field := (p.1, fun k j i => p.2 (k0 + k) (j0 + j) (i0 + i))

/-- The file written by the process of Grid `(k, j, i)`; dump_vtk.c:60-330. -/
noncomputable def Run.gridFile (r : Run) (k j i : ℕ) : VFile :=
  ⟨⟨r.comment, dumpDims (r.Nx i) (r.Ny j) (r.Nz k), r.X i, r.Y j, r.Z k, r.dx, r.dy, r.dz, r.Nx i * r.Ny j * r.Nz k⟩,
   dumpBody (r.Nz k) (r.Ny j) (r.Nx i) (r.fields.map (shift (total r.Nz k) (total r.Ny j) (total r.Nx i)))⟩

/-- The file of a run on one process. -/
noncomputable def Run.wholeFile (r : Run) : VFile :=
  ⟨⟨r.comment, dumpDims (total r.Nx r.nX) (total r.Ny r.nY) (total r.Nz r.nZ), r.X 0, r.Y 0, r.Z 0, r.dx, r.dy, r.dz,
    total r.Nx r.nX * total r.Ny r.nY * total r.Nz r.nZ⟩,
   dumpBody (total r.Nz r.nZ) (total r.Ny r.nY) (total r.Nx r.nX) r.fields⟩

/-- The files of all processes. -/
noncomputable def Run.files (r : Run) : List VFile := cat r.nZ fun k => cat r.nY fun j => cat r.nX fun i => [r.gridFile k j i]

/-- One section for each variable: its lines, and its data on the whole Domain. -/
def Run.sections (r : Run) : List (List Byte) :=
  r.fields.map fun p => p.1.line ++ dumpData (total r.Nz r.nZ) (total r.Ny r.nY) (total r.Nx r.nX) p.2

/-- A decomposition into at least two Grids of at least one zone, where a Grid of one zone in x2 has one zone in x3. -/
structure Run.Good (r : Run) : Prop where
  nX : 0 < r.nX
  nY : 0 < r.nY
  nZ : 0 < r.nZ
  two : 2 ≤ r.nZ * (r.nY * r.nX)
  Nx : ∀ i, 0 < r.Nx i
  Ny : ∀ j, 0 < r.Ny j
  Nz : ∀ k, 0 < r.Nz k
  thick : ∀ j k, j < r.nY → k < r.nZ → r.Ny j = 1 → r.Nz k = 1
  fields : ∀ p ∈ r.fields, GoodField p

/-- The origins read back increase along each direction. -/
structure Run.Ascending (r : Run) : Prop where
  X : ∀ i, i + 1 < r.nX → r.X i < r.X (i+1)
  Y : ∀ i, i + 1 < r.nY → r.Y i < r.Y (i+1)
  Z : ∀ i, i + 1 < r.nZ → r.Z i < r.Z (i+1)

/-! ## Lemmas -/

theorem cat_total {α : Type} (N : ℕ → ℕ) (G : ℕ) (f : ℕ → List α) :
    cat (total N G) f = cat G fun g => cat (N g) fun i => f (total N g + i) := by
  induction G with
  | zero => rfl
  | succ G ih => rw [total, cat_add, ih, cat_succ]

/-- What the file holds from some position on: the first variable after `s`, the others after a newline. -/
def dumpS (s : List Byte) (nz ny nx : ℕ) : List Field → List Byte
  | [] => []
  | p :: l => s ++ p.1.line ++ dumpData nz ny nx p.2 ++ dumpRest nz ny nx l

theorem dumpRest_eq (nz ny nx : ℕ) (l : List Field) : dumpRest nz ny nx l = dumpS [10] nz ny nx l := by
  cases l with
  | nil => rfl
  | cons p l => rfl

theorem dumpBody_eq (nz ny nx : ℕ) (l : List Field) : dumpBody nz ny nx l = dumpS [] nz ny nx l := by
  cases l with
  | nil => rfl
  | cons p l => simp [dumpBody, dumpS]

/-- One file: the sections, with a newline between them. -/
theorem dumpBody_sections (nz ny nx : ℕ) (l : List Field) :
    dumpBody nz ny nx l = List.intercalate [10] (l.map fun p => p.1.line ++ dumpData nz ny nx p.2) := by
  have h : ∀ (p : Field) l, p.1.line ++ dumpData nz ny nx p.2 ++ dumpRest nz ny nx l =
      List.intercalate [10] ((p :: l).map fun p => p.1.line ++ dumpData nz ny nx p.2) := by
    intro p l
    induction l generalizing p with
    | nil => simp [dumpRest, List.intercalate]
    | cons q l ih =>
      have := ih q
      simp only [dumpRest, List.map_cons, List.intercalate, List.intersperse] at this ⊢
      simp only [List.flatten_cons] at this ⊢
      rw [← this]
      simp [List.append_assoc]
  cases l with
  | nil => simp [dumpBody, List.intercalate]
  | cons p l => exact h p l

/-- The places of the files. -/
def Place (nX nY nZ : ℕ) (x : Idx) : Prop := x.1 < nZ ∧ x.2.1 < nY ∧ x.2.2 < nX

theorem place_mem {nX nY nZ : ℕ} {x : Idx} (hx : x ∈ places nX nY nZ) : Place nX nY nZ x := by
  obtain ⟨k, hk, h⟩ := List.mem_flatMap.mp hx
  obtain ⟨j, hj, h⟩ := List.mem_flatMap.mp h
  obtain ⟨i, hi, h⟩ := List.mem_flatMap.mp h
  rw [List.mem_singleton.mp h]
  exact ⟨List.mem_range.mp hk, List.mem_range.mp hj, List.mem_range.mp hi⟩

/-- The array of files fits the sizes of the Grids. -/
def Fits (N : Idx → Dom) (nX nY nZ : ℕ) (Nx Ny Nz : ℕ → ℕ) : Prop :=
  ∀ k j i, k < nZ → j < nY → i < nX → (N (k, j, i)).Nx = Nx i ∧ (N (k, j, i)).Ny = Ny j ∧ (N (k, j, i)).Nz = Nz k

/-- The data of one variable are read from all files and written in the order of the whole Domain. -/
theorem readRows_data (N : Idx → Dom) {nX nY nZ : ℕ} (hX : 0 < nX) (hY : 0 < nY) (hZ : 0 < nZ) {Nx Ny Nz : ℕ → ℕ}
    (hN : Fits N nX nY nZ Nx Ny Nz) (w : ℕ) (val : ℕ → ℕ → ℕ → List Byte) (hw : ∀ k j i, (val k j i).length = w)
    (pre post : Idx → List Byte)
    (hbody : ∀ k j i, k < nZ → j < nY → i < nX → (N (k, j, i)).file.body = pre (k, j, i) ++
      dumpData (Nz k) (Ny j) (Nx i) (fun k' j' i' => val (total Nz k + k') (total Ny j + j') (total Nx i + i')) ++ post (k, j, i))
    (pos : Idx → ℕ) (hpos : ∀ x, Place nX nY nZ x → pos x = (pre x).length) (out : List Byte) :
    ∃ pos', readRows N w (visits N nX nY nZ) (pos, out) = .ok (pos', out ++ dumpData (total Nz nZ) (total Ny nY) (total Nx nX) val) ∧
      ∀ k j i, k < nZ → j < nY → i < nX → pos' (k, j, i) = (pre (k, j, i)).length +
        (dumpData (Nz k) (Ny j) (Nx i) (fun k' j' i' => val (total Nz k + k') (total Ny j + j') (total Nx i + i'))).length := by
  have hv : visits N nX nY nZ =
      cat nZ fun kg => cat (Nz kg) fun _ => cat nY fun jg => cat (Ny jg) fun _ => cat nX fun ig => [(kg, jg, ig)] := by
    unfold visits
    refine cat_congr fun kg hkg => ?_
    rw [(hN kg 0 0 hkg hY hX).2.2]
    refine cat_congr fun _ _ => cat_congr fun jg hjg => ?_
    rw [(hN 0 jg 0 hZ hjg hX).2.1]
  obtain ⟨row, hrowdef⟩ : ∃ row : Idx → ℕ → List Byte, row = fun x r => cat (N (0, 0, x.2.2)).Nx fun i =>
      val (total Nz x.1 + r / Ny x.2.1) (total Ny x.2.1 + r % Ny x.2.1) (total Nx x.2.2 + i) := ⟨_, rfl⟩
  have hrow : ∀ x r, (row x r).length = (N (0, 0, x.2.2)).Nx * w := by
    intro x r
    rw [hrowdef]
    exact length_cat_row fun i => hw _ _ _
  have hdata : ∀ k j i, k < nZ → j < nY → i < nX →
      dumpData (Nz k) (Ny j) (Nx i) (fun k' j' i' => val (total Nz k + k') (total Ny j + j') (total Nx i + i')) =
        cat (Nz k * Ny j) (row (k, j, i)) := by
    intro k j i hk hj hi
    rw [Nat.mul_comm, cat_mul, hrowdef]
    dsimp only
    refine cat_congr fun k' hk' => cat_congr fun j' hj' => ?_
    rw [(hN 0 0 i hZ hY hi).1, Nat.mul_comm k', Nat.mul_add_div (by omega), Nat.div_eq_of_lt hj', Nat.mul_add_mod, Nat.mod_eq_of_lt hj', Nat.add_zero]
  have hcnt := counted_all row Ny Nz nX nY nZ (fun _ => 0)
  obtain ⟨pos', h1, h2⟩ := readRows_counted N w (Place nX nY nZ) pre post (fun x => Nz x.1 * Ny x.2.1) row hrow
    (fun x hx => by
      obtain ⟨k, j, i⟩ := x
      rw [hbody k j i hx.1 hx.2.1 hx.2.2, hdata k j i hx.1 hx.2.1 hx.2.2])
    (visits N nX nY nZ)
    (fun x hx => by
      rw [hv] at hx
      obtain ⟨k, hk, h⟩ := List.mem_flatMap.mp hx
      obtain ⟨_, _, h⟩ := List.mem_flatMap.mp h
      obtain ⟨j, hj, h⟩ := List.mem_flatMap.mp h
      obtain ⟨_, _, h⟩ := List.mem_flatMap.mp h
      obtain ⟨i, hi, h⟩ := List.mem_flatMap.mp h
      rw [List.mem_singleton.mp h]
      exact ⟨List.mem_range.mp hk, List.mem_range.mp hj, List.mem_range.mp hi⟩)
    (fun _ => 0)
    (fun x hx => by
      rw [hv, hcnt]
      dsimp only
      rw [if_pos (show _ ∧ _ ∧ _ from hx), Nat.zero_add])
    pos out (fun x hx => by rw [hpos x hx, Nat.zero_mul, Nat.add_zero])
  refine ⟨pos', ?_, fun k j i hk hj hi => ?_⟩
  · rw [h1, hv, hcnt]
    dsimp only
    congr 3
    unfold dumpData
    rw [cat_total Nz nZ]
    refine cat_congr fun kg hkg => cat_congr fun k hk => ?_
    rw [cat_total Ny nY]
    refine cat_congr fun jg hjg => cat_congr fun j hj => ?_
    rw [cat_total Nx nX]
    refine cat_congr fun ig hig => ?_
    rw [hrowdef]
    dsimp only
    rw [(hN 0 0 ig hZ hY hig).1, Nat.zero_add, Nat.mul_comm k, Nat.mul_add_div (by omega), Nat.div_eq_of_lt hj, Nat.mul_add_mod,
      Nat.mod_eq_of_lt hj, Nat.add_zero]
  · rw [h2 (k, j, i) ⟨hk, hj, hi⟩, hdata k j i hk hj hi, length_cat_row (hrow _), hv, hcnt]
    dsimp only
    rw [if_pos ⟨hk, hj, hi⟩, Nat.zero_add]

/-- The loop over variables. -/
theorem joinVars_ok (N : Idx → Dom) {nX nY nZ : ℕ} (hX : 0 < nX) (hY : 0 < nY) (hZ : 0 < nZ) {Nx Ny Nz : ℕ → ℕ}
    (hN : Fits N nX nY nZ Nx Ny Nz) (vars : List Field) (hgood : ∀ p ∈ vars, GoodField p) (s : List Byte) (hs : ∀ b ∈ s, isspace b = true)
    (A : Idx → List Byte)
    (hbody : ∀ k j i, k < nZ → j < nY → i < nX → (N (k, j, i)).file.body = A (k, j, i) ++
      dumpS s (Nz k) (Ny j) (Nx i) (vars.map (shift (total Nz k) (total Ny j) (total Nx i))))
    (pos : Idx → ℕ) (hpos : ∀ x, Place nX nY nZ x → pos x = (A x).length) (out : List Byte) (fuel : ℕ) (hfuel : vars.length < fuel) :
    joinVars N nX nY nZ fuel pos out =
      .ok (out ++ (vars.map fun p => p.1.line ++ dumpData (total Nz nZ) (total Ny nY) (total Nx nX) p.2).flatten) := by
  induction vars generalizing s A pos out fuel with
  | nil =>
    obtain ⟨fuel, rfl⟩ : ∃ m, fuel = m + 1 := ⟨fuel - 1, by omega⟩
    have hb := hbody 0 0 0 hZ hY hX
    rw [List.map_nil, dumpS, List.append_nil] at hb
    unfold joinVars
    rw [hb, hpos (0, 0, 0) ⟨hZ, hY, hX⟩, readLine_end]
    simp
  | cons p vars ih =>
    obtain ⟨fuel, rfl⟩ : ∃ m, fuel = m + 1 := ⟨fuel - 1, by omega⟩
    obtain ⟨v, val⟩ := p
    obtain ⟨hword, hlen⟩ := hgood (v, val) (by simp)
    dsimp only at hword hlen
    have hbody' : ∀ k j i, k < nZ → j < nY → i < nX → (N (k, j, i)).file.body = A (k, j, i) ++ s ++ v.line ++
        (dumpData (Nz k) (Ny j) (Nx i) (fun k' j' i' => val (total Nz k + k') (total Ny j + j') (total Nx i + i')) ++
          dumpRest (Nz k) (Ny j) (Nx i) (vars.map (shift (total Nz k) (total Ny j) (total Nx i)))) := by
      intro k j i hk hj hi
      rw [hbody k j i hk hj hi, List.map_cons, dumpS]
      simp [shift, List.append_assoc]
    have hline : ∀ k j i, k < nZ → j < nY → i < nX → readLine (N (k, j, i)).file.body (pos (k, j, i)) =
        .ok (some (⟨v.kind, v.name, sFloat⟩, (A (k, j, i) ++ s ++ v.line).length)) := by
      intro k j i hk hj hi
      rw [hbody' k j i hk hj hi, hpos _ ⟨hk, hj, hi⟩, readLine_var _ _ _ v hs hword]
    have hall : ((places nX nY nZ).all fun x => (startOf ⟨v.kind, v.name, sFloat⟩ (N x).file.body (pos x)).isSome) = true := by
      rw [List.all_eq_true]
      intro x hx
      obtain ⟨k, j, i⟩ := x
      obtain ⟨hk, hj, hi⟩ := place_mem hx
      rw [startOf, hline k j i hk hj hi]
      simp
    have hdat : ∀ w, (∀ k j i, (val k j i).length = w) → ∀ out',
        ∃ pos', readRows N w (visits N nX nY nZ) (fun x => (startOf ⟨v.kind, v.name, sFloat⟩ (N x).file.body (pos x)).getD 0, out') =
            .ok (pos', out' ++ dumpData (total Nz nZ) (total Ny nY) (total Nx nX) val) ∧
          ∀ out'', joinVars N nX nY nZ fuel pos' out'' = .ok (out'' ++ (vars.map fun p => p.1.line ++
            dumpData (total Nz nZ) (total Ny nY) (total Nx nX) p.2).flatten) := by
      intro w hw out'
      obtain ⟨pos', h1, h2⟩ := readRows_data N hX hY hZ hN w val hw (fun x => A x ++ s ++ v.line)
        (fun x => dumpRest (Nz x.1) (Ny x.2.1) (Nx x.2.2) (vars.map (shift (total Nz x.1) (total Ny x.2.1) (total Nx x.2.2))))
        (fun k j i hk hj hi => by rw [hbody' k j i hk hj hi, List.append_assoc (A (k, j, i) ++ s ++ v.line)])
        (fun x => (startOf ⟨v.kind, v.name, sFloat⟩ (N x).file.body (pos x)).getD 0)
        (fun x hx => by
          obtain ⟨k, j, i⟩ := x
          rw [startOf, hline k j i hx.1 hx.2.1 hx.2.2]
          simp)
        out'
      refine ⟨pos', h1, fun out'' => ?_⟩
      refine ih (fun p hp => hgood p (by simp [hp])) [10] (by decide)
        (fun x => A x ++ s ++ v.line ++ dumpData (Nz x.1) (Ny x.2.1) (Nx x.2.2)
          (fun k' j' i' => val (total Nz x.1 + k') (total Ny x.2.1 + j') (total Nx x.2.2 + i')))
        (fun k j i hk hj hi => ?_) pos' (fun x hx => ?_) out'' fuel (by rw [List.length_cons] at hfuel; omega)
      · rw [hbody' k j i hk hj hi, ← dumpRest_eq, ← List.append_assoc]
      · obtain ⟨k, j, i⟩ := x
        rw [h2 k j i hx.1 hx.2.1 hx.2.2]
        simp only [List.length_append]
    unfold joinVars
    rw [hline 0 0 0 hZ hY hX]
    dsimp only
    rw [if_neg (fun h => h rfl), if_neg (by rw [hall]; decide)]
    cases hvec : v.vec with
    | false =>
      have hk : v.kind = sScalars := by unfold Var.kind; rw [hvec]; rfl
      obtain ⟨pos', h1, h2⟩ := hdat 4 (fun k j i => by rw [hlen, hvec]; rfl) (out ++ v.kind ++ [32] ++ v.name ++ [32] ++ sFloat ++ [10] ++ sTable ++ [10])
      rw [if_pos hk, h1]
      dsimp only
      rw [h2, List.map_cons, List.flatten_cons]
      unfold Var.line
      rw [hvec]
      simp [List.append_assoc]
    | true =>
      have hk : v.kind = sVectors := by unfold Var.kind; rw [hvec]; rfl
      obtain ⟨pos', h1, h2⟩ := hdat 12 (fun k j i => by rw [hlen, hvec]; rfl) (out ++ v.kind ++ [32] ++ v.name ++ [32] ++ sFloat ++ [10])
      rw [if_neg (by rw [hk]; decide), if_pos hk, h1]
      dsimp only
      rw [h2, List.map_cons, List.flatten_cons]
      unfold Var.line
      rw [hvec]
      simp [List.append_assoc]

/-- The file after its header has been read. -/
noncomputable def Run.dom (r : Run) (k j i : ℕ) : Dom := ⟨r.gridFile k j i, r.Nx i, r.Ny j, r.Nz k⟩

theorem cells_succ {n : ℕ} (h : 0 < n) : cells (n+1) = n := by
  unfold cells
  rw [if_pos (by omega), Nat.add_sub_cancel]

theorem initDom_ok (r : Run) (hr : r.Good) {k j i : ℕ} (hk : k < r.nZ) (hj : j < r.nY) : initDom (r.gridFile k j i) = .ok (r.dom k j i) := by
  have hx := hr.Nx i
  have hy := hr.Ny j
  have hz := hr.Nz k
  have ht := hr.thick j k hj hk
  have h1 : cells 1 = 1 := rfl
  unfold initDom Run.gridFile dumpDims Run.dom Run.gridFile
  dsimp only
  by_cases hy1 : r.Ny j = 1
  · rw [if_pos hy1]
    dsimp only
    rw [cells_succ hx, h1, hy1, ht hy1]
    simp [dumpDims]
  · rw [if_neg hy1]
    by_cases hz1 : r.Nz k = 1
    · rw [if_pos hz1]
      dsimp only
      rw [cells_succ hx, cells_succ hy, h1, hz1]
      simp [dumpDims, hy1]
    · rw [if_neg hz1]
      dsimp only
      rw [cells_succ hx, cells_succ hy, cells_succ hz]
      simp [dumpDims, hy1, hz1]

theorem initDoms_ok {g : VFile → Dom} : ∀ {fs : List VFile}, (∀ f ∈ fs, initDom f = .ok (g f)) → initDoms fs = .ok (fs.map g)
  | [], _ => rfl
  | f :: fs, h => by
    unfold initDoms
    rw [h f (by simp), initDoms_ok fun f hf => h f (by simp [hf])]
    rfl

/-- Number of zones of the file, from its header. -/
def domOf (f : VFile) : Dom := ⟨f, cells f.head.dims.1, cells f.head.dims.2.1, cells f.head.dims.2.2⟩

theorem initDom_domOf {f : VFile} {d : Dom} (h : initDom f = .ok d) : d = domOf f := by
  unfold initDom at h
  dsimp only at h
  split_ifs at h
  exact (Res.ok.inj h).symm

theorem map_domOf (r : Run) (hr : r.Good) : r.files.map domOf = inOrder r.dom r.nX r.nY r.nZ := by
  unfold Run.files inOrder
  rw [cat_map]
  refine cat_congr fun k hk => ?_
  rw [cat_map]
  refine cat_congr fun j hj => ?_
  rw [cat_map]
  refine cat_congr fun i hi => ?_
  rw [List.map_cons, List.map_nil, initDom_domOf (initDom_ok r hr hk hj)]

theorem mem_files {r : Run} {f : VFile} (h : f ∈ r.files) : ∃ k j i, k < r.nZ ∧ j < r.nY ∧ i < r.nX ∧ f = r.gridFile k j i := by
  obtain ⟨k, hk, h⟩ := List.mem_flatMap.mp h
  obtain ⟨j, hj, h⟩ := List.mem_flatMap.mp h
  obtain ⟨i, hi, h⟩ := List.mem_flatMap.mp h
  exact ⟨k, j, i, List.mem_range.mp hk, List.mem_range.mp hj, List.mem_range.mp hi, List.mem_singleton.mp h⟩

theorem init_files (r : Run) (hr : r.Good) {fs : List VFile} (hfs : fs.Perm r.files) : initDoms fs = .ok (fs.map domOf) := by
  refine initDoms_ok fun f hf => ?_
  obtain ⟨k, j, i, hk, hj, _, rfl⟩ := mem_files (hfs.mem_iff.mp hf)
  rw [initDom_ok r hr hk hj, initDom_domOf (initDom_ok r hr hk hj)]

theorem dumpRest_length (nz ny nx : ℕ) (l : List Field) : l.length ≤ (dumpRest nz ny nx l).length := by
  induction l with
  | nil => simp
  | cons p l ih =>
    obtain ⟨v, val⟩ := p
    rw [dumpRest]
    simp only [List.length_append, List.length_cons, List.length_nil]
    omega

theorem dumpBody_length (nz ny nx : ℕ) (l : List Field) : l.length ≤ (dumpBody nz ny nx l).length := by
  cases l with
  | nil => simp
  | cons p l =>
    obtain ⟨v, val⟩ := p
    have := dumpRest_length nz ny nx l
    rw [dumpBody]
    unfold Var.line
    simp only [List.length_append, List.length_cons, List.length_nil]
    omega

theorem total_pos {N : ℕ → ℕ} (h : ∀ i, 0 < N i) : ∀ {n}, 0 < n → 0 < total N n
  | n + 1, _ => by rw [total]; have := h n; omega

theorem total_congr {f g : ℕ → ℕ} : ∀ {n}, (∀ i, i < n → f i = g i) → total f n = total g n
  | 0, _ => rfl
  | n + 1, h => by rw [total, total, total_congr fun i hi => h i (by omega), h n (by omega)]

/-- The joined file, once the files are in order. -/
theorem join_ordered (Q : Qsort) (r : Run) (hr : r.Good) {fs : List VFile} (hfs : fs.Perm r.files)
    (hsort : sortDoms Q (fs.map domOf) = .ok (inOrder r.dom r.nX r.nY r.nZ, r.nX, r.nY, r.nZ)) :
    join Q fs = .ok ⟨{ r.wholeFile.head with
      dims := (corners (total r.Nx r.nX) r.dx, corners (total r.Ny r.nY) r.dy, corners (total r.Nz r.nZ) r.dz) }, r.sections.flatten⟩ := by
  have hlen : 2 ≤ fs.length := by
    rw [hfs.length_eq]
    unfold Run.files
    rw [cat_length (c := r.nY * r.nX) fun k _ => cat_length fun j _ => by rw [cat_length (c := 1) fun i _ => rfl, Nat.mul_one]]
    exact hr.two
  have hfill : ∀ k j i, k < r.nZ → j < r.nY → i < r.nX → fill (inOrder r.dom r.nX r.nY r.nZ) r.nX r.nY (k, j, i) = r.dom k j i :=
    fun k j i hk hj hi => fill_inOrder r.dom hk hj hi
  have hN : Fits (fill (inOrder r.dom r.nX r.nY r.nZ) r.nX r.nY) r.nX r.nY r.nZ r.Nx r.Ny r.Nz := by
    intro k j i hk hj hi
    rw [hfill k j i hk hj hi]
    exact ⟨rfl, rfl, rfl⟩
  unfold join
  rw [if_neg (by omega), init_files r hr hfs]
  dsimp only
  rw [hsort]
  dsimp only
  generalize hF : fill (inOrder r.dom r.nX r.nY r.nZ) r.nX r.nY = N at *
  have h0 := hfill 0 0 0 hr.nZ hr.nY hr.nX
  have hj := joinVars_ok N hr.nX hr.nY hr.nZ hN r.fields hr.fields [] (by simp) (fun _ => [])
    (fun k j i hk hj hi => by
      rw [hfill k j i hk hj hi, ← dumpBody_eq]
      rfl)
    (fun _ => 0) (fun _ _ => rfl) [] ((N (0, 0, 0)).file.body.length + 1)
    (by
      rw [h0]
      have := dumpBody_length (r.Nz 0) (r.Ny 0) (r.Nx 0) (r.fields.map (shift (total r.Nz 0) (total r.Ny 0) (total r.Nx 0)))
      rw [List.length_map] at this
      exact Nat.lt_succ_of_le this)
  rw [hj]
  dsimp only
  rw [total_congr (f := fun i => (N (0, 0, i)).Nx) fun i hi => (hN 0 0 i hr.nZ hr.nY hi).1,
    total_congr (f := fun j => (N (0, j, 0)).Ny) fun j hj => (hN 0 j 0 hr.nZ hj hr.nX).2.1,
    total_congr (f := fun k => (N (k, 0, 0)).Nz) fun k hk => (hN k 0 0 hk hr.nY hr.nX).2.2, h0]
  rfl

/-! ## Properties -/

/-- **Joining gives the data of the whole Domain.**  Whatever the decomposition, the order of the files on the command line and the values: the joined
file holds, for every variable, its lines and then its data on the whole Domain in the order of a run on one process.  Comment, origin, spacing and
number of zones are those of that run. -/
theorem join_exact (Q : Qsort) (r : Run) (hr : r.Good) (ha : r.Ascending) {fs : List VFile} (hfs : fs.Perm r.files) :
    ∃ F, join Q fs = .ok F ∧ F.body = r.sections.flatten ∧ r.wholeFile.body = List.intercalate [10] r.sections ∧
      F.head.comment = r.wholeFile.head.comment ∧ F.head.ox = r.wholeFile.head.ox ∧ F.head.oy = r.wholeFile.head.oy ∧
      F.head.oz = r.wholeFile.head.oz ∧ F.head.dx = r.wholeFile.head.dx ∧ F.head.dy = r.wholeFile.head.dy ∧
      F.head.dz = r.wholeFile.head.dz ∧ F.head.cells = r.wholeFile.head.cells := by
  refine ⟨_, join_ordered Q r hr hfs ?_, rfl, dumpBody_sections _ _ _ _, rfl, rfl, rfl, rfl, rfl, rfl, rfl, rfl⟩
  refine sort_correct Q hr.nX hr.nY hr.nZ r.dom r.X r.Y r.Z ha.X ha.Y ha.Z (fun _ _ _ _ _ _ => ⟨rfl, rfl, rfl⟩) ?_
  rw [← map_domOf r hr]
  exact hfs.map domOf

/-- **`DIMENSIONS` of the joined file**, for a Domain with more than one zone in each direction.  Missing: Domains of one or two dimensions
(`join_dims_false`). -/
theorem join_dims_partial (Q : Qsort) (r : Run) (hr : r.Good) (ha : r.Ascending) (hdx : 0 < r.dx) (hdy : 0 < r.dy) (hdz : 0 < r.dz)
    (hy : 1 < total r.Ny r.nY) (hz : 1 < total r.Nz r.nZ) {fs : List VFile} (hfs : fs.Perm r.files) :
    ∃ F, join Q fs = .ok F ∧ F.head.dims = r.wholeFile.head.dims := by
  refine ⟨_, join_ordered Q r hr hfs ?_, ?_⟩
  · refine sort_correct Q hr.nX hr.nY hr.nZ r.dom r.X r.Y r.Z ha.X ha.Y ha.Z (fun _ _ _ _ _ _ => ⟨rfl, rfl, rfl⟩) ?_
    rw [← map_domOf r hr]
    exact hfs.map domOf
  · have hx := total_pos hr.Nx hr.nX
    dsimp only [Run.wholeFile]
    unfold dumpDims corners
    rw [if_pos (show _ ∧ 0 < r.dx from ⟨by omega, hdx⟩), if_pos (show _ ∧ 0 < r.dy from ⟨by omega, hdy⟩),
      if_pos (show _ ∧ 0 < r.dz from ⟨by omega, hdz⟩), if_neg (show ¬total r.Ny r.nY = 1 by omega),
      if_neg (show ¬total r.Nz r.nZ = 1 by omega)]

/-- **The joined file of a plane run is declared two zones deep**: with one zone in x3 and spacing greater than zero, `DIMENSIONS` ends in 2, where
a run on one process writes 1. -/
theorem join_dims_false (Q : Qsort) (r : Run) (hr : r.Good) (ha : r.Ascending) (hdz : 0 < r.dz) (hz : total r.Nz r.nZ = 1)
    {fs : List VFile} (hfs : fs.Perm r.files) :
    ∃ F, join Q fs = .ok F ∧ F.head.dims.2.2 = 2 ∧ r.wholeFile.head.dims.2.2 = 1 := by
  refine ⟨_, join_ordered Q r hr hfs ?_, ?_, ?_⟩
  · refine sort_correct Q hr.nX hr.nY hr.nZ r.dom r.X r.Y r.Z ha.X ha.Y ha.Z (fun _ _ _ _ _ _ => ⟨rfl, rfl, rfl⟩) ?_
    rw [← map_domOf r hr]
    exact hfs.map domOf
  · dsimp only
    unfold corners
    rw [if_pos ⟨by omega, hdz⟩, hz]
  · dsimp only [Run.wholeFile]
    unfold dumpDims
    split_ifs
    · rfl
    · rfl

end Athena.Join
