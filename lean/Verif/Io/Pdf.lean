import Verif.Mesh.Pos
import Mathlib.Data.Nat.Sqrt
import Mathlib.Analysis.Real.Sqrt
import Mathlib.Tactic.Ring
import Mathlib.Tactic.Linarith
import Mathlib.Tactic.FieldSimp
import Mathlib.Tactic.Positivity

/-!
# src/output_pdf.c: distribution of the values of a variable

Numbers are exact reals, printed values the numbers themselves.  The data of a Grid are the values of the variable on its zones in the
order of the loops.  The two forms of the function, without and with `MPI_PARALLEL`, are modelled separately.
-/

namespace Athena.Pdf
noncomputable section
open Athena.Pos (toInt)

/-- Local variables initialised at the head of the function, output_pdf.c:47-50. -/
structure Acc where
  mean : ℝ
  var : ℝ
  adev : ℝ
  sdev : ℝ
  skew : ℝ
  kurt : ℝ
  ep : ℝ

/-- output_pdf.c:47-50. -/
def Acc.zero : Acc := ⟨0, 0, 0, 0, 0, 0, 0⟩

/-- The static variables `size_dat` and `size_pdf` once `data` and `pdf` are allocated, output_pdf.c:25-29. -/
structure Sizes where
  dat : ℕ
  pdf : ℕ

/-- What one file holds: the header and the two columns, output_pdf.c:262-304. -/
structure File where
  nbin : ℕ
  dmin : ℝ
  dmax : ℝ
  mean : ℝ
  var : ℝ
  sdev : ℝ
  adev : ℝ
  skew : ℝ
  kurt : ℝ
  rows : List (ℝ × ℝ)

/-- Minimum as in the loop, output_pdf.c:118; the first value is read twice. -/
def minOf (d : ℝ) (l : List ℝ) : ℝ := l.foldl (fun m x => if x < m then x else m) d
/-- Maximum as in the loop, output_pdf.c:119. -/
def maxOf (d : ℝ) (l : List ℝ) : ℝ := l.foldl (fun m x => if x > m then x else m) d
/-- `mean += data[n]`, output_pdf.c:120. -/
def sumFrom (m : ℝ) (l : List ℝ) : ℝ := l.foldl (fun m x => m + x) m

/-- The loop over the data, output_pdf.c:149-156. -/
def moments (mean : ℝ) (a : Acc) (l : List ℝ) : Acc :=
  l.foldl (fun a x =>
    let s := x - mean
    let r2 := s * s
    let r3 := r2 * s
    let r4 := r3 * s
    { a with adev := a.adev + |s|, ep := a.ep + s, var := a.var + r2, skew := a.skew + r3, kurt := a.kurt + r4 }) a

/-- The end of the statistics, output_pdf.c:179-185 and :171-177. -/
def norms (N : ℕ) (a : Acc) : Acc :=
  let adev := a.adev / N
  let var := (a.var - a.ep * a.ep / N) / ((N : ℝ) - 1)
  let sdev := √var
  if sdev > 0 then
    { a with adev, var, sdev, skew := a.skew / (var * sdev * N), kurt := a.kurt / (var * var * N) - 3 }
  else { a with adev, var, sdev }

/-- `pdf[i]++`; an index outside the array is undefined behaviour, output_pdf.c:206. -/
def incr (size : ℕ) (i : ℤ) (pdf : ℕ → ℕ) : Res (ℕ → ℕ) :=
  if 0 ≤ i ∧ i < size then .ok (Function.update pdf i.toNat (pdf i.toNat + 1)) else .ub

/-- The bins, output_pdf.c:203-207. -/
def hist (size : ℕ) (dmin scl : ℝ) : (ℕ → ℕ) → List ℝ → Res (ℕ → ℕ)
  | pdf, [] => .ok pdf
  | pdf, x :: l => do
    let i ← toInt (scl * (x - dmin))
    let i := if i < size then i else (size : ℤ) - 1
    let pdf ← incr size i pdf
    hist size dmin scl pdf l

/-- output_pdf.c:198-208: the array is not used if all values are equal. -/
def bins (size : ℕ) (dmin dmax : ℝ) (l : List ℝ) : Res (ℕ → ℕ) :=
  if dmax - dmin > 0 then hist size dmin (size / (dmax - dmin)) (fun _ => 0) l else .ok fun _ => 0

/-- The file, output_pdf.c:262-304; `N` is the number of zones of the Domain. -/
def write (size N : ℕ) (dmin dmax : ℝ) (a : Acc) (pdf : ℕ → ℕ) : File :=
  { nbin := if dmax - dmin > 0 then size else 1
    dmin, dmax, mean := a.mean, var := a.var, sdev := a.sdev, adev := a.adev, skew := a.skew, kurt := a.kurt
    rows := if dmax - dmin > 0 then
        (List.range size).map fun n : ℕ => (dmin + ((n : ℝ) + 1/2) * ((dmax - dmin) / size), (pdf n : ℝ) * (size / (N * (dmax - dmin))))
      else [(dmax, 1)] }

/-- One Domain without MPI, output_pdf.c:71-306; the arrays are allocated on the first visit.  Writing more values than `size_dat` is
undefined behaviour. -/
def domain (st : Option Sizes) (a : Acc) (d : ℝ) (l : List ℝ) : Res (File × Sizes × Acc) := do
  let x := d :: l
  let N := x.length
  let st := st.getD ⟨N, N.sqrt⟩
  if st.dat < N then .ub else
  let dmin := minOf d x
  let dmax := maxOf d x
  let a := { a with mean := sumFrom a.mean x / N }
  let a := if 1 < N then norms N (moments a.mean a x) else a
  let pdf ← bins st.pdf dmin dmax x
  return (write st.pdf N dmin dmax a pdf, st, a)

/-- The loop over the Domains, output_pdf.c:61-340; each Domain has at least one zone, `d`. -/
def domains : Option Sizes → Acc → List (ℝ × List ℝ) → Res (List File × Option Sizes)
  | st, _, [] => .ok ([], st)
  | st, a, (d, l) :: D => do
    let (f, st', a') ← domain st a d l
    let (fs, st'') ← domains (some st') a' D
    return (f :: fs, st'')

/-- One call of `output_pdf` without MPI, output_pdf.c:40-345. -/
def output (st : Option Sizes) (D : List (ℝ × List ℝ)) : Res (List File × Option Sizes) := domains st Acc.zero D

/-! ## With MPI: one Domain, whose Grids have the data `d :: l` for each process; the first is the root -/

/-- `MPI_Allreduce` with `MPI_MIN`. -/
def redMin : List ℝ → ℝ
  | [] => 0
  | x :: l => l.foldl min x
/-- `MPI_Allreduce` with `MPI_MAX`. -/
def redMax : List ℝ → ℝ
  | [] => 0
  | x :: l => l.foldl max x

/-- The bins of each process, summed by `MPI_Reduce`, output_pdf.c:198-215. -/
def binsAll (size : ℕ) (dmin dmax : ℝ) : List (ℝ × List ℝ) → Res (ℕ → ℕ)
  | [] => .ok fun _ => 0
  | (d, l) :: G => do
    let p ← bins size dmin dmax (d :: l)
    let q ← binsAll size dmin dmax G
    return fun n => p n + q n

/-- The file written by the root of a Domain on its first visit, output_pdf.c:71-306 with `MPI_PARALLEL`.  The sums of the squares, cubes and fourth
powers and `ep` are reduced, those of the absolute values are not.  Grids that do not agree on `data_cnt > 1` make different collective calls,
which is undefined. -/
def outputMpi (d : ℝ) (l : List ℝ) (G : List (ℝ × List ℝ)) : Res File := do
  let all := (d, l) :: G
  let N := (all.map fun g => (g.1 :: g.2).length).sum
  let size := N.sqrt
  let dmin := redMin (all.map fun g => minOf g.1 (g.1 :: g.2))
  let dmax := redMax (all.map fun g => maxOf g.1 (g.1 :: g.2))
  let mean := (all.map fun g => sumFrom 0 (g.1 :: g.2)).sum / N
  let own := moments mean { Acc.zero with mean } (d :: l)
  let part := all.map fun g => moments mean { Acc.zero with mean } (g.1 :: g.2)
  let a : Acc := { own with
    ep := (part.map Acc.ep).sum, var := (part.map Acc.var).sum, skew := (part.map Acc.skew).sum, kurt := (part.map Acc.kurt).sum }
  if all.any (fun g => decide (1 < (g.1 :: g.2).length)) ≠ all.all (fun g => decide (1 < (g.1 :: g.2).length)) then .ub else
  let a := if 1 < (d :: l).length then norms N a else { Acc.zero with mean }
  let pdf ← binsAll size dmin dmax all
  return write size N dmin dmax a pdf

end
end Athena.Pdf
