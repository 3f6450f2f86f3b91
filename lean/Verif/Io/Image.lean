import Verif.Mesh.Pos
import Verif.Utils.Model
import Verif.Io.Palette

/-!
# src/output_pgm.c, src/output_ppm.c: images

Numbers are exact reals (`float` and `double` alike).  The data are the rows of the array returned by `OutData2` (modelled in `Io/Slice`).  An
image is its width and height and the bytes after the header; the values passed to `fputc` are kept as integers.
-/

namespace Athena.Image
noncomputable section
open Athena.Pos (toInt)

/-- An image file: the numbers in the header and the values passed to `fputc`. -/
structure Img where
  nx1 : ℕ
  nx2 : ℕ
  bytes : List ℤ

/-- `FLT_EPSILON` of IEEE single precision. -/
def fltEps : ℝ := 1 / 8388608

/-- Calls of `fputc` for each value in turn. -/
def emit (f : ℝ → Res (List ℤ)) : List ℝ → Res (List ℤ)
  | [] => .ok []
  | x :: l => do
    let p ← f x
    let q ← emit f l
    return p ++ q

/-- One pixel, output_pgm.c:105-110. -/
def gray (dmin sfact x : ℝ) : Res (List ℤ) := do
  let g ← toInt (sfact * (x - dmin))
  let g := if g > 0 then g else 0
  let g := if g < 255 then g else 255
  return [g]

/-- The image of one Domain, output_pgm.c:84-123; `smin`, `smax` are `dmin`, `dmax` of the input file if given.  Rows from the last to the first. -/
def pgm (smin smax : Option ℝ) (data : List (List ℝ)) : Res Img := do
  let (dmin, dmax) ← Utils.minmax2 data
  let dmin := smin.getD dmin
  let dmax := smax.getD dmax
  let maxMin := (dmax - dmin) * (1 + fltEps)
  let bytes ← if maxMin > 0 then emit (gray dmin (256 / maxMin)) data.reverse.flatten else emit (fun _ => .ok [0]) data.flatten
  return ⟨(data.headD []).length, data.length, bytes⟩

/-- Search of a palette by name, output.c:1417-1436; the program ends if there is none. -/
def getRGB (name : List Char) : Res (List ℕ) :=
  match tables.find? (fun t => t.1 = name) with
  | some t => .ok t.2
  | none => .fatal

/-- Reading entry `k` of `rgb`. -/
def rgbAt (p : List ℕ) (k : ℕ) : Res ℝ :=
  match p[k]? with
  | some v => .ok ((v : ℝ) / 1000000000)
  | none => .ub

/-- Reading entry `k` of `der`, filled for `k < 765` only, output.c:417-419. -/
def derAt (p : List ℕ) (k : ℕ) : Res ℝ := do
  if k < 765 then
    let b ← rgbAt p (k + 3)
    let a ← rgbAt p k
    return b - a
  else .ub

/-- One colour between two entries, output_ppm.c:159-161. -/
def mix (p : List ℕ) (x : ℝ) (i : ℤ) (c : ℕ) : Res ℤ := do
  let a ← rgbAt p (i.toNat * 3 + c)
  let d ← derAt p (i.toNat * 3 + c)
  toInt ((a + (x - i) * d) * 255)

/-- One colour at the end of the table, output_ppm.c:153-155. -/
def edge (p : List ℕ) (i c : ℕ) : Res ℤ := do
  let a ← rgbAt p (i * 3 + c)
  toInt (a * 255)

/-- `compute_rgb`, output_ppm.c:134-170; `rgb` is not NULL since `getRGB` ends the program otherwise. -/
def computeRgb (p : List ℕ) (dmin dmax data : ℝ) : Res (List ℤ) := do
  if dmin = dmax then
    let v := if data > dmax then 255 else 0
    return [v, v, v]
  else
    let x := (data - dmin) * 255 / (dmax - dmin)
    if x ≤ 0 ∨ x ≥ 255 then
      let i := if x ≤ 0 then 0 else 255
      let r ← edge p i 0
      let g ← edge p i 1
      let b ← edge p i 2
      return [r, g, b]
    else
      let i ← toInt x
      let r ← mix p x i 0
      let g ← mix p x i 1
      let b ← mix p x i 2
      return [r, g, b]

/-- The image of one Domain, output_ppm.c:96-116. -/
def ppm (name : List Char) (smin smax : Option ℝ) (data : List (List ℝ)) : Res Img := do
  let p ← getRGB name
  let (dmin, dmax) ← Utils.minmax2 data
  let dmin := smin.getD dmin
  let dmax := smax.getD dmax
  let bytes ← emit (computeRgb p dmin dmax) data.reverse.flatten
  return ⟨(data.headD []).length, data.length, bytes⟩

end
end Athena.Image
