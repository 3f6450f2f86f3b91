import Verif.Mesh.Nest
import Mathlib.Logic.Function.Basic

/-!
# src/init_grid.c: neighbour tables, overlaps of child and parent Grids, message sizes;
# src/init_mesh.c Step 8-9: communicators

C `int`s are modelled by `Int`/`Nat` without overflow.
-/

namespace Athena.Mesh

/-! ## Overlap of boxes -/

/-- `checkOverlap`, src/init_grid.c:1144-1169: return value and Cube3. -/
def checkOverlap (a b : Side) : Bool × Side :=
  if ∀ i : Fin 3, a.l i < b.r i ∧ a.r i > b.l i then
    (true, { l := fun i => max (a.l i) (b.l i), r := fun i => min (a.r i) (b.r i) })
  else (false, { l := fun _ => -1, r := fun _ => -1 })

/-- `checkOverlapTouch`, src/init_grid.c:1180-1205. -/
def checkOverlapTouch (a b : Side) : Bool × Side :=
  if ∀ i : Fin 3, a.l i ≤ b.r i ∧ a.r i ≥ b.l i then
    (true, { l := fun i => max (a.l i) (b.l i), r := fun i => min (a.r i) (b.r i) })
  else (false, { l := fun _ => -1, r := fun _ => -1 })

/-! ## Sizes of the messages between a parent and a child Grid -/

/-- Configuration: `nDim` (src/init_grid.c:62-63), MHD or not, `NVAR`, `nghost`, root `Nx`. -/
structure Cfg where
  nDim : Nat
  mhd : Bool
  nvar : Int
  ng : Int
  rootNx : Fin 3 → Int

/-- `Disp` and `Nx` of a Grid. -/
structure GBox where
  disp : Fin 3 → Int
  nx : Fin 3 → Int

/-- Sides of a Grid in its own cells, src/init_grid.c:309-312, 706-709. -/
def GBox.side (g : GBox) : Side := { l := g.disp, r := fun i => g.disp i + g.nx i }

/-- Sides of a child Grid in units of the parent's cells, src/init_grid.c:410-416. -/
def coarseSide (cD : Dom) (g : GBox) : Side where
  l := fun i => (g.disp i).tdiv 2
  r := fun i => if cD.nx i > 1 then (g.disp i + g.nx i).tdiv 2 else 1

/-- Sides of a parent Grid in units of the child's cells, src/init_grid.c:803-807. -/
def fineSide (g : GBox) : Side where
  l := fun i => 2 * g.disp i
  r := fun i => 2 * (g.disp i + g.nx i)

/-- Transverse sizes `n1z`,`n2z` of the overlap `n`, src/init_grid.c:495-506, 887-898. -/
def transverse (n : Fin 3 → Int) (dim : Fin 3) : Int × Int :=
  if dim = 0 then (n 1, n 2) else if dim = 1 then (n 0, n 2) else (n 0, n 1)

/-- Words added to `nWordsRC`, `nWordsP` of `CGrid` (on the parent) for one boundary of the child in
direction `dim`, src/init_grid.c:494-567 (inner; 579-652 for the outer boundary is the same code).
`n` is the overlap in each direction in parent cells. -/
def parentFace (cf : Cfg) (pG : GBox) (n : Fin 3 → Int) (dim : Fin 3) : Int × Int :=
  let n1z := (transverse n dim).1
  let n2z := (transverse n dim).2
  let vol := n 0 * n 1 * n 2 > 0
  let n1p := if vol then n1z + (if pG.nx 1 > 1 then cf.ng + 2 else 0) else 0
  let n2p := if vol then n2z + (if pG.nx 2 > 1 then cf.ng + 2 else 0) else 0
  let rc := n1z*n2z*cf.nvar +
    (if n1z*n2z > 0 ∧ cf.mhd then
      (if pG.nx 1 > 1 ∧ dim ≠ 2 then (n1z+1)*n2z else 0) +
      (if pG.nx 2 > 1 ∧ dim = 0 then n1z*(n2z+1) else 0) +
      (if pG.nx 2 > 1 ∧ dim = 1 then n1z*(n2z+1) else 0) +
      (if pG.nx 2 > 1 ∧ dim = 2 then n1z*(n2z+1) + (n1z+1)*n2z else 0)
     else 0)
  let p := (cf.ng.tdiv 2 + 2)*n1p*n2p*cf.nvar +
    (if n1z*n2z > 0 ∧ cf.mhd then 3*(cf.ng.tdiv 2 + 2)*n1p*n2p else 0)
  (rc, p)

/-- Words added to `nWordsRC`, `nWordsP` of `PGrid` (on the child) for one boundary,
src/init_grid.c:886-965 (inner; outer 977-1056).  `n` is the overlap in child cells; the number of words
is counted in parent cells `n1r`, `n2r` (901-903). -/
def childFace (cf : Cfg) (cG : GBox) (n : Fin 3 → Int) (dim : Fin 3) : Int × Int :=
  let n1z := (transverse n dim).1
  let n2z := (transverse n dim).2
  let n1r := if n1z > 1 then n1z.tdiv 2 else n1z
  let n2r := if n2z > 1 then n2z.tdiv 2 else n2z
  let vol := n 0 * n 1 * n 2 > 0
  let n1p := if vol then n1r + (if cG.nx 1 > 1 then cf.ng + 2 else 0) else 0
  let n2p := if vol then n2r + (if cG.nx 2 > 1 then cf.ng + 2 else 0) else 0
  let rc := n1r*n2r*cf.nvar +
    (if n1z*n2z > 0 ∧ cf.mhd then
      (if cG.nx 1 > 1 ∧ dim ≠ 2 then (n1r+1)*n2r else 0) +
      (if cG.nx 2 > 1 ∧ dim = 0 then n1r*(n2r+1) else 0) +
      (if cG.nx 2 > 1 ∧ dim = 1 then n1r*(n2r+1) else 0) +
      (if cG.nx 2 > 1 ∧ dim = 2 then n1r*(n2r+1) + (n1r+1)*n2r else 0)
     else 0)
  let p := (cf.ng.tdiv 2 + 2)*n1p*n2p*cf.nvar +
    (if n1z*n2z > 0 ∧ cf.mhd then 3*(cf.ng.tdiv 2 + 2)*n1p*n2p else 0)
  (rc, p)

/-- Words for the cells themselves, src/init_grid.c:454-471 and 849-863 (`n` in parent cells). -/
def bodyWords (cf : Cfg) (n : Fin 3 → Int) : Int :=
  let w := n 0 * n 1 * n 2 * cf.nvar
  if cf.mhd ∧ w > 0 then
    if cf.nDim = 3 then w + ((n 0 + 1)*n 1*n 2 + n 0*(n 1 + 1)*n 2 + n 0*n 1*(n 2 + 1))
    else if cf.nDim = 2 then w + ((n 0 + 1)*n 1 + n 0*(n 1 + 1))
    else w
  else w

/-- Sum over the directions `dim < nDim`, inner then outer boundary (src/init_grid.c:476, 868). -/
def sumFaces (cf : Cfg) (inner outer : Fin 3 → Bool) (face : Fin 3 → Int × Int) : Int × Int :=
  ([0, 1, 2] : List (Fin 3)).foldl (fun acc d =>
    if d.val < cf.nDim then
      let a1 := if inner d then (acc.1 + (face d).1, acc.2 + (face d).2) else acc
      if outer d then (a1.1 + (face d).1, a1.2 + (face d).2) else a1
    else acc) (0, 0)

/-- `nWordsRC` and `nWordsP` of the `CGrid` entry a parent Grid `pG` of level `nl` makes for the child
Grid `cG` at position `gi` of the `NG` Grids of child Domain `cD`; `none` if they neither overlap nor
touch.  src/init_grid.c:408-656. -/
def parentEntry (cf : Cfg) (nl : Nat) (pG : GBox) (cD : Dom) (NG gi : Fin 3 → Nat) (cG : GBox) :
    Option (Int × Int) :=
  let G2 := coarseSide cD cG
  let ov := checkOverlapTouch pG.side G2
  if ov.1 then
    let G3 := ov.2
    let n := fun i => G3.r i - G3.l i
    let inner := fun d => decide (G2.l d = G3.l d ∧ cD.disp d ≠ 0 ∧ gi d = 0)
    let outer := fun d => decide (G2.r d = G3.r d ∧
      (cD.disp d + cD.nx d).tdiv (irefine (nl+1)) ≠ cf.rootNx d ∧ gi d = NG d - 1)
    let f := sumFaces cf inner outer (parentFace cf pG n)
    some (bodyWords cf n + f.1, f.2)
  else none

/-- `nWordsRC` and `nWordsP` of the `PGrid` entry the child Grid `cG` (level `lev`) makes for the parent
Grid `pG`.  src/init_grid.c:801-1060. -/
def childEntry (cf : Cfg) (lev : Nat) (cD : Dom) (NG gi : Fin 3 → Nat) (cG pG : GBox) :
    Option (Int × Int) :=
  let G1 := cG.side
  let ov := checkOverlapTouch G1 (fineSide pG)
  if ov.1 then
    let G3 := ov.2
    let n := fun i => G3.r i - G3.l i
    let nb : Fin 3 → Int := fun i =>
      if i = 0 then (n 0).tdiv 2
      else if cG.nx i > 1 then (n i).tdiv 2 else 1
    let inner := fun d => decide (G1.l d = G3.l d ∧ cD.disp d ≠ 0 ∧ gi d = 0)
    let outer := fun d => decide (G1.r d = G3.r d ∧
      (cD.disp d + cD.nx d).tdiv (irefine lev) ≠ cf.rootNx d ∧ gi d = NG d - 1)
    let f := sumFaces cf inner outer (childFace cf cG n)
    some (bodyWords cf nb + f.1, f.2)
  else none

/-! ## Overlap tables: counting pass and filling pass -/

/-- Counting pass, src/init_grid.c:347-355 / 741-749: `(NCGrid, NmyCGrid)` over the candidate Grids in
loop order; a candidate is `(touches, on this rank)`. -/
def countPass : List (Bool × Bool) → Nat × Nat
  | [] => (0, 0)
  | (t, mine) :: rest =>
    let r := countPass rest
    if t then (r.1 + 1, if mine then r.2 + 1 else r.2) else r

/-- Filling pass, src/init_grid.c:385-386, 418-439 / 779-823: the candidate with index `k` is written to
entry `nMy` or `nC` of the table.  The table is a function with `none` for entries not written;
returned with the number of out-of-range or repeated writes. -/
def fillPass (size : Nat) : List (Bool × Bool) → Nat → Nat → Nat → (Nat → Option Nat) → Nat →
    (Nat → Option Nat) × Nat
  | [], _, _, _, tab, bad => (tab, bad)
  | (t, mine) :: rest, k, nMy, nC, tab, bad =>
    if t then
      let idx := if mine then nMy else nC
      let bad' := if idx < size ∧ tab idx = none then bad else bad + 1
      let tab' := Function.update tab idx (some k)
      if mine then fillPass size rest (k+1) (nMy+1) nC tab' bad'
      else fillPass size rest (k+1) nMy (nC+1) tab' bad'
    else fillPass size rest (k+1) nMy nC tab bad

/-- Both passes: the table and the number of bad writes. -/
def overlapTable (cands : List (Bool × Bool)) : (Nat → Option Nat) × Nat :=
  let c := countPass cands
  fillPass c.1 cands 0 0 c.2 (fun _ => none) 0

/-! ## Ranks in the Domain communicator and neighbours -/

/-- Loop order of the Grids of a Domain, src/init_mesh.c:687-693: `n` outermost, `l` innermost. -/
def gridOrder (NG : Fin 3 → Nat) : List (Fin 3 → Nat) :=
  (List.range (NG 2)).flatMap fun n => (List.range (NG 1)).flatMap fun m =>
    (List.range (NG 0)).map fun l => fun i => if i = 0 then l else if i = 1 then m else n

/-- `ID_Comm_Domain`: the value of the counter `groupn` (src/init_mesh.c:690-692) in closed form. -/
def commID (NG g : Fin 3 → Nat) : Nat := (g 2 * NG 1 + g 1) * NG 0 + g 0

/-- Boundary set-up of `bvals_mhd_init` on the left side of a direction, as far as the neighbour is
concerned (src/bvals_mhd.c:544-587): is the left neighbour of the first Grid the last Grid?
`user` says that the problem generator has enrolled its own function. -/
def wrapLeft (user : Bool) (disp nx irf rootNx : Int) (flag : Int) : Res Bool :=
  if user then .ok false
  else if disp ≠ 0 then .ok false
  else if (disp + nx).tdiv irf ≠ rootNx ∧ flag = 4 then .fatal
  else if flag = 1 ∨ flag = 2 ∨ flag = 5 then .ok false
  else if flag = 4 then .ok true
  else .fatal

/-- Same for the right side, src/bvals_mhd.c:591-634. -/
def wrapRight (user : Bool) (disp nx irf rootNx : Int) (flag : Int) : Res Bool :=
  if user then .ok false
  else if (disp + nx).tdiv irf ≠ rootNx then .ok false
  else if disp ≠ 0 ∧ flag = 4 then .fatal
  else if flag = 1 ∨ flag = 2 ∨ flag = 5 then .ok false
  else if flag = 4 then .ok true
  else .fatal

/-- `lx?_id` of the Grid at position `g`, direction `d`: src/init_grid.c:237-262 and
src/bvals_mhd.c:571-573 etc. (the three directions are the same code; -1 = no neighbour). -/
def leftID (NG g : Fin 3 → Nat) (d : Fin 3) (wrap : Bool) : Int :=
  if g d > 0 then commID NG (Function.update g d (g d - 1))
  else if wrap ∧ NG d > 1 then commID NG (Function.update g d (NG d - 1))
  else -1

/-- `rx?_id`, src/init_grid.c:237-262, src/bvals_mhd.c:618-620 etc. -/
def rightID (NG g : Fin 3 → Nat) (d : Fin 3) (wrap : Bool) : Int :=
  if g d < NG d - 1 then commID NG (Function.update g d (g d + 1))
  else if wrap ∧ NG d > 1 then commID NG (Function.update g d 0)
  else -1

/-! ## Communicator of a parent Domain and its children -/

/-- The search `for (i=0; i<Nranks; i++) if (id == ranks[i]) irank = i;` (src/init_mesh.c:777-780):
last index holding `id`. -/
def findRank (id : Nat) : List Nat → Nat → Option Nat → Option Nat
  | [], _, acc => acc
  | r :: rs, i, acc => findRank id rs (i+1) (if id = r then some i else acc)

/-- Loop over the child Grids, src/init_mesh.c:774-789: the array `ranks` (prefix in use) and the
`ID_Comm_Parent` given to each child Grid. -/
def addChildren : List Nat → List Nat → List Nat × List Nat
  | [], ranks => (ranks, [])
  | id :: ids, ranks =>
    match findRank id ranks 0 none with
    | none =>
      let r := addChildren ids (ranks ++ [id])
      (r.1, ranks.length :: r.2)
    | some irank =>
      let r := addChildren ids ranks
      (r.1, ranks.getD irank 0 :: r.2)

end Athena.Mesh
