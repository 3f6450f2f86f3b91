import Verif.Base
import Mathlib.Data.Real.Basic
import Mathlib.Data.List.Perm.Basic

/-!
# src/dump_vtk.c and vis/vtk/join_vtk.c

VTK files written by the processes of a run, and the program that joins them.  Numbers in the header lines are taken as the values
that are read back (`%e` keeps seven digits: the origin read is some function of the origin of the Grid).  Everything after the line
`CELL_DATA` is modelled byte by byte.  `qsort` is any function that returns its input in ascending order of the key.
-/

namespace Athena.Join

/-- A byte. -/
abbrev Byte := ℕ

/-- The bytes of an ASCII string, given by its characters. -/
def str (s : List Char) : List Byte := s.map Char.toNat

/-- `VECTORS` -/
def sVectors : List Byte := str ['V','E','C','T','O','R','S']
/-- `SCALARS` -/
def sScalars : List Byte := str ['S','C','A','L','A','R','S']
/-- `float` -/
def sFloat : List Byte := str ['f','l','o','a','t']
/-- `LOOKUP_TABLE default` -/
def sTable : List Byte := str ['L','O','O','K','U','P','_','T','A','B','L','E',' ','d','e','f','a','u','l','t']
/-- `LOOKUP_TABLE` -/
def sLookup : List Byte := str ['L','O','O','K','U','P','_','T','A','B','L','E']
/-- `default` -/
def sDefault : List Byte := str ['d','e','f','a','u','l','t']

/-- `isspace` in the C locale. -/
def isspace (b : Byte) : Bool := b == 32 || (9 ≤ b && b ≤ 13)

/-- Concatenation of `f 0`, …, `f (n-1)`: what a loop `for (i=0; i<n; i++)` writes. -/
def cat {α : Type} (n : ℕ) (f : ℕ → List α) : List α := (List.range n).flatMap f

/-- The header as read back: `DIMENSIONS`, `ORIGIN`, `SPACING`, `CELL_DATA`, and the comment line. -/
structure Head where
  comment : List Byte
  dims : ℕ × ℕ × ℕ
  ox : ℝ
  oy : ℝ
  oz : ℝ
  dx : ℝ
  dy : ℝ
  dz : ℝ
  cells : ℕ

/-- A file: the header, and the bytes after it. -/
structure VFile where
  head : Head
  body : List Byte

/-- A variable in the file: `SCALARS` or `VECTORS`, and its name. -/
structure Var where
  vec : Bool
  name : List Byte

/-! ## dump_vtk -/

/-- The data of one variable: loops over k, j, i; dump_vtk.c:165-177, 186-202 and the like for the other variables. -/
def dumpData (nz ny nx : ℕ) (val : ℕ → ℕ → ℕ → List Byte) : List Byte :=
  cat nz fun k => cat ny fun j => cat nx fun i => val k j i

/-- `SCALARS` or `VECTORS`. -/
def Var.kind (v : Var) : List Byte := if v.vec then sVectors else sScalars

/-- The lines before the data of a variable, without the newline before them; dump_vtk.c:163-164, 181-185. -/
def Var.line (v : Var) : List Byte :=
  v.kind ++ [32] ++ v.name ++ [32] ++ sFloat ++ [10] ++ (if v.vec then [] else sTable ++ [10])

/-- All variables after the first: each begins with a newline; dump_vtk.c:179-330. -/
def dumpRest (nz ny nx : ℕ) : List (Var × (ℕ → ℕ → ℕ → List Byte)) → List Byte
  | [] => []
  | (v, val) :: l => [10] ++ v.line ++ dumpData nz ny nx val ++ dumpRest nz ny nx l

/-- Everything after the header; dump_vtk.c:161-330. -/
def dumpBody (nz ny nx : ℕ) : List (Var × (ℕ → ℕ → ℕ → List Byte)) → List Byte
  | [] => []
  | (v, val) :: l => v.line ++ dumpData nz ny nx val ++ dumpRest nz ny nx l

/-- `DIMENSIONS`, dump_vtk.c:145-153. -/
def dumpDims (nx ny nz : ℕ) : ℕ × ℕ × ℕ :=
  if ny = 1 then (nx + 1, 1, 1) else if nz = 1 then (nx + 1, ny + 1, 1) else (nx + 1, ny + 1, nz + 1)

/-! ## join_vtk: headers and order of the files -/

/-- A file after `init_domain_1d`: number of zones. -/
structure Dom where
  file : VFile
  Nx : ℕ
  Ny : ℕ
  Nz : ℕ

/-- `if (N > 1) N--`, join_vtk.c:277-279. -/
def cells (n : ℕ) : ℕ := if 1 < n then n - 1 else n

/-- `init_domain_1d` for one file, join_vtk.c:269-298. -/
def initDom (f : VFile) : Res Dom :=
  let Nx := cells f.head.dims.1
  let Ny := cells f.head.dims.2.1
  let Nz := cells f.head.dims.2.2
  if f.head.cells ≠ Nx * Ny * Nz then .fatal else .ok ⟨f, Nx, Ny, Nz⟩

/-- `init_domain_1d`, join_vtk.c:227-305; the fixed lines of the header are taken to be there. -/
def initDoms : List VFile → Res (List Dom)
  | [] => .ok []
  | f :: l => match initDom f, initDoms l with
    | .ok d, .ok ds => .ok (d :: ds)
    | _, _ => .fatal

/-- A sorting function: what the C library promises of `qsort`.  The order of equal elements is not specified. -/
structure QsortOf (α : Type) where
  sort : (α → ℝ) → List α → List α
  perm : ∀ key l, (sort key l).Perm l
  sorted : ∀ key l, (sort key l).Pairwise fun a b => key a ≤ key b

/-- `qsort` of files. -/
abbrev Qsort := QsortOf Dom

/-- Counting: each rise above the last value; join_vtk.c:347-353, 372-378. -/
noncomputable def rises : ℝ → List ℝ → ℕ
  | _, [] => 0
  | o, z :: l => if o < z then rises z l + 1 else rises o l

/-- The count, starting from the first element; join_vtk.c:344-353, 369-378. -/
noncomputable def count : List ℝ → ℕ
  | [] => 0
  | z :: l => rises z l + 1

/-- Elements `i*c`, …, `i*c+c-1`. -/
def chunk {α : Type} (c i : ℕ) (l : List α) : List α := (l.drop (i * c)).take c

/-- `sort_domain_1d`, join_vtk.c:335-411 and vis/matlab/join_bin/join_bin.c:325-402, which differ in the name of the keys: the sorted array and `NGrid_x`,
`NGrid_y`, `NGrid_z`.  `div` by a count of zero cannot happen for a non-empty list. -/
noncomputable def sortBy {α : Type} (Q : QsortOf α) (ox oy oz : α → ℝ) (l : List α) : Res (List α × ℕ × ℕ × ℕ) :=
  let n := l.length
  let l := Q.sort oz l
  let zcount := count (l.map oz)
  if n % zcount ≠ 0 then .fatal else
  let xy := n / zcount
  let l := cat zcount fun i => Q.sort oy (chunk xy i l)
  let ycount := count ((chunk xy 0 l).map oy)
  if xy % ycount ≠ 0 then .fatal else
  let xcount := xy / ycount
  let l := cat (ycount * zcount) fun i => Q.sort ox (chunk xcount i l)
  .ok (l, xcount, ycount, zcount)

/-- `sort_domain_1d` of join_vtk.c: by origin. -/
noncomputable def sortDoms (Q : Qsort) (l : List Dom) : Res (List Dom × ℕ × ℕ × ℕ) :=
  sortBy Q (fun d => d.file.head.ox) (fun d => d.file.head.oy) (fun d => d.file.head.oz) l

/-! ## join_vtk: reading a file -/

/-- White space skipped by `fscanf`. -/
def skipWs (l : List Byte) : List Byte := l.dropWhile isspace

/-- `%s`: skip white space, read up to the next white space; `none` at the end of the file. -/
def token (l : List Byte) : Option (List Byte × List Byte) :=
  match skipWs l with
  | [] => none
  | l => some (l.takeWhile fun b => !isspace b, l.dropWhile fun b => !isspace b)

/-- The loop that steps back over white space, from position `q` of the file, and the check that a newline follows; join_vtk.c:625-627.
A failed `assert` ends the program. -/
def back (f : List Byte) : ℕ → Res ℕ
  | 0 => match f[0]? with
    | some c => if isspace c then .fatal else if f[1]? = some 10 then .ok 2 else .fatal
    | none => .fatal
  | q + 1 => match f[q+1]? with
    | some c => if isspace c then back f q else if f[q+2]? = some 10 then .ok (q + 3) else .fatal
    | none => .fatal

/-- What is known of a variable after its lines have been read. -/
structure Seen where
  kind : List Byte
  name : List Byte
  fmt : List Byte
deriving DecidableEq

/-- The lines before a variable, read from position `pos`: `none` at the end of the file; join_vtk.c:574-630.  A line with one or two words leaves the
strings as they were, which is not modelled (`ub`). -/
def readLine (f : List Byte) (pos : ℕ) : Res (Option (Seen × ℕ)) :=
  match token (f.drop pos) with
  | none => .ok none
  | some (t1, r) => match token r with
    | none => .ub
    | some (t2, r) => match token r with
      | none => .ub
      | some (t3, r) =>
        let r := skipWs r
        let fin := fun r : List Byte =>
          if f.length - r.length = 0 then Res.fatal else
          match back f (f.length - r.length - 1) with
          | .ok p => .ok (some (⟨t1, t2, t3⟩, p))
          | .fatal => .fatal
          | .ub => .ub
        if t1 = sScalars then
          match token r with
          | none => .ub
          | some (a, r) => match token r with
            | none => .ub
            | some (b, r) => if a = sLookup ∧ b = sDefault then fin (skipWs r) else .fatal
        else fin r

/-- A place in the 3D array of files: `[kg][jg][ig]`. -/
abbrev Idx := ℕ × ℕ × ℕ

/-- The places, in the order of the loops. -/
def places (nX nY nZ : ℕ) : List Idx := cat nZ fun k => cat nY fun j => cat nX fun i => [(k, j, i)]

/-- The rows of zones, in the order in which they are read; join_vtk.c:423-455, 471-503.  Each entry is the file, by its place. -/
def visits (N : Idx → Dom) (nX nY nZ : ℕ) : List Idx :=
  cat nZ fun kg => cat (N (kg, 0, 0)).Nz fun _ => cat nY fun jg => cat (N (0, jg, 0)).Ny fun _ => cat nX fun ig => [(kg, jg, ig)]

/-- Read and write one row of `n` bytes of file `x`; the first component of the state has the positions in the files; join_vtk.c:436-444. -/
def readRow (N : Idx → Dom) (w : ℕ) (x : Idx) (s : (Idx → ℕ) × List Byte) : Res ((Idx → ℕ) × List Byte) :=
  let n := (N (0, 0, x.2.2)).Nx * w
  let l := ((N x).file.body.drop (s.1 x)).take n
  if l.length ≠ n then .fatal else .ok (Function.update s.1 x (s.1 x + n), s.2 ++ l)

/-- Rows one after the other. -/
def readRows (N : Idx → Dom) (w : ℕ) : List Idx → (Idx → ℕ) × List Byte → Res ((Idx → ℕ) × List Byte)
  | [], s => .ok s
  | x :: l, s => match readRow N w x s with
    | .ok s => readRows N w l s
    | .fatal => .fatal
    | .ub => .ub

/-- The lines of the next variable are those expected: where its data start; join_vtk.c:592-630. -/
def startOf (s : Seen) (f : List Byte) (pos : ℕ) : Option ℕ :=
  match readLine f pos with
  | .ok (some (s', p)) => if s' = s then some p else none
  | _ => none

/-- The loop over variables, join_vtk.c:569-649; `fuel` bounds the number of turns.  Files are independent, so the lines of all files are read at once;
any difference ends the program. -/
def joinVars (N : Idx → Dom) (nX nY nZ : ℕ) : ℕ → (Idx → ℕ) → List Byte → Res (List Byte)
  | 0, _, _ => .ub
  | fuel + 1, pos, out => match readLine (N (0, 0, 0)).file.body (pos (0, 0, 0)) with
    | .fatal => .fatal
    | .ub => .ub
    | .ok none => .ok out
    | .ok (some (s, _)) =>
      if s.fmt ≠ sFloat then .fatal else
      if ((places nX nY nZ).all fun x => (startOf s (N x).file.body (pos x)).isSome) = false then .fatal else
      let pos := fun x => (startOf s (N x).file.body (pos x)).getD 0
      let out := out ++ s.kind ++ [32] ++ s.name ++ [32] ++ s.fmt ++ [10]
      if s.kind = sScalars then
        match readRows N 4 (visits N nX nY nZ) (pos, out ++ sTable ++ [10]) with
        | .ok (pos, out) => joinVars N nX nY nZ fuel pos out
        | .fatal => .fatal
        | .ub => .ub
      else if s.kind = sVectors then
        match readRows N 12 (visits N nX nY nZ) (pos, out) with
        | .ok (pos, out) => joinVars N nX nY nZ fuel pos out
        | .fatal => .fatal
        | .ub => .ub
      else .fatal

/-- `if (nxt >= 1 && dx > 0.0) nxp = nxt+1`, join_vtk.c:544-551. -/
noncomputable def corners (n : ℕ) (d : ℝ) : ℕ := if 1 ≤ n ∧ 0 < d then n + 1 else n

/-- Sum of `f 0`, …, `f (n-1)`. -/
def total (f : ℕ → ℕ) : ℕ → ℕ
  | 0 => 0
  | n + 1 => total f n + f n

/-- `domain_3d`, filled from the sorted array, join_vtk.c:134-142. -/
def fill {α : Type} [Inhabited α] (l : List α) (nX nY : ℕ) : Idx → α := fun x => l.getD (x.2.2 + nX * (x.2.1 + nY * x.1)) default

instance : Inhabited Dom := ⟨⟨⟨⟨[], (0, 0, 0), 0, 0, 0, 0, 0, 0, 0⟩, []⟩, 0, 0, 0⟩⟩

/-- `main` and `write_joined_vtk`, join_vtk.c:75-190, 512-652; two files at least (`argc < 5`). -/
noncomputable def join (Q : Qsort) (fs : List VFile) : Res VFile :=
  if fs.length < 2 then .fatal else
  match initDoms fs with
  | .fatal => .fatal
  | .ub => .ub
  | .ok ds => match sortDoms Q ds with
    | .fatal => .fatal
    | .ub => .ub
    | .ok (l, nX, nY, nZ) =>
      let N := fill l nX nY
      let nxt := total (fun i => (N (0, 0, i)).Nx) nX
      let nyt := total (fun j => (N (0, j, 0)).Ny) nY
      let nzt := total (fun k => (N (k, 0, 0)).Nz) nZ
      let h := (N (0, 0, 0)).file.head
      let hd : Head := { h with
        dims := (corners nxt h.dx, corners nyt h.dy, corners nzt h.dz)
        cells := nxt * nyt * nzt }
      match joinVars N nX nY nZ ((N (0, 0, 0)).file.body.length + 1) (fun _ => 0) [] with
      | .ok body => .ok ⟨hd, body⟩
      | .fatal => .fatal
      | .ub => .ub

end Athena.Join
