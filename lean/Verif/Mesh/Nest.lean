import Verif.Base

/-!
# src/init_mesh.c, Steps 1-5: levels, checks of every `<domain>` block, same-level and nesting tests

The input file is represented by the list of its `<domain>` blocks in order.  Reading of the
parameters (par.c) is modelled elsewhere.  Physical coordinates (`x1min`, …) are not part of this
model; C `int`s are modelled by `Int` without overflow.
-/

namespace Athena.Mesh

/-- The integer parameters of one `<domain>` block: `level`, `Nx1..3`, `iDisp,jDisp,kDisp`
(src/init_mesh.c:250-268, 318-331). -/
structure Block where
  level : Int
  nx : Fin 3 → Int
  disp : Fin 3 → Int

/-- Fields `Level`, `Nx`, `Disp` of `DomainS` (src/athena.h) after Step 3. -/
structure Dom where
  level : Nat
  nx : Fin 3 → Int
  disp : Fin 3 → Int

/-- `nDim`: number of directions with more than one cell, src/init_mesh.c:176-177, 272-273. -/
def nDims (nx : Fin 3 → Int) : Nat :=
  (if nx 0 > 1 then 1 else 0) + (if nx 1 > 1 then 1 else 0) + (if nx 2 > 1 then 1 else 0)

/-- Largest level, at least 0: src/init_mesh.c:120-126 (`maxlevel` is initialised with 0, line 86). -/
def maxLevel : List Block → Nat
  | [] => 0
  | b :: bs => max b.level.toNat (maxLevel bs)

/-- Number of blocks on level `nl`, src/init_mesh.c:139-143. -/
def countLevel (bs : List Block) (nl : Nat) : Nat := (bs.filter (fun b => b.level = (nl : Int))).length

/-- Loop src/init_mesh.c:138-152: fatal if some level up to the maximum has no block. -/
def levelsNonEmpty (bs : List Block) : Nat → Bool
  | 0 => countLevel bs 0 ≠ 0
  | n+1 => levelsNonEmpty bs n && countLevel bs (n+1) ≠ 0

/-- Root-level checks, src/init_mesh.c:176-197 (`true` = accepted). -/
def rootOK (nx : Fin 3 → Int) : Bool :=
  nDims nx ≠ 0 ∧ (∀ i, nx i ≥ 1) ∧ ¬ (nDims nx = 1 ∧ nx 0 = 1) ∧ ¬ (nDims nx = 2 ∧ nx 2 > 1)

/-- `irefine = 2^nl` computed by the loop src/init_mesh.c:256-257. -/
def irefine : Nat → Int
  | 0 => 1
  | n+1 => irefine n * 2

/-- Displacement read for a Domain, src/init_mesh.c:314-333. -/
def readDisp (rootNx : Fin 3 → Int) (nl : Nat) (d : Fin 3 → Int) : Fin 3 → Int :=
  fun i => if nl = 0 then 0
    else if i = 0 then d 0
    else if rootNx i > 1 then d i else 0

/-- Checks of one block and construction of its Domain, src/init_mesh.c:246-341.
A negative level indexes `next_domainid[nl]` out of bounds (line 251): undefined. -/
def makeDom (rootNx : Fin 3 → Int) (b : Block) : Res Dom :=
  if b.level < 0 then .ub
  else
    let nl := b.level.toNat
    let nDim := nDims rootNx
    let disp := readDisp rootNx nl b.disp
    if nDims b.nx ≠ nDim then .fatal
    else if ¬ ∀ i, b.nx i ≥ 1 then .fatal
    else if nDim = 1 ∧ b.nx 0 = 1 then .fatal
    else if nDim = 2 ∧ b.nx 2 > 1 then .fatal
    else if ¬ ∀ i : Fin 3, i.val < nDim → (b.nx i).tmod (irefine nl) = 0 then .fatal
    else if ¬ ∀ i : Fin 3, i.val < nDim → (disp i).tmod (irefine nl) = 0 then .fatal
    else .ok { level := nl, nx := b.nx, disp := disp }

/-- Loop over the blocks, src/init_mesh.c:242-368. -/
def makeDoms (rootNx : Fin 3 → Int) : List Block → Res (List Dom)
  | [] => .ok []
  | b :: bs =>
    match makeDom rootNx b with
    | .ok d => match makeDoms rootNx bs with
      | .ok ds => .ok (d :: ds)
      | .fatal => .fatal
      | .ub => .ub
    | .fatal => .fatal
    | .ub => .ub

/-- `SideS` (src/athena.h): indices of the six sides of a cube. -/
structure Side where
  l : Fin 3 → Int
  r : Fin 3 → Int

/-- Sides of a Domain, src/init_mesh.c:376-379, 402-405. -/
def Dom.side (d : Dom) : Side := { l := d.disp, r := fun i => d.disp i + d.nx i }

/-- The touching test of src/init_mesh.c:387-389 and 416-418. -/
def touching (a b : Side) : Bool := ∀ i : Fin 3, a.l i ≤ b.r i ∧ a.r i ≥ b.l i

/-- Inner loop src/init_mesh.c:381-393: does `d` touch one of the Domains after it? -/
def touchesAny (d : Dom) : List Dom → Bool
  | [] => false
  | e :: es => touching d.side e.side || touchesAny d es

/-- Step 4 on one level, src/init_mesh.c:375-394 (`false` = `ath_error`). -/
def step4Level : List Dom → Bool
  | [] => true
  | d :: ds => !touchesAny d ds && step4Level ds

/-- Sides of a potential child in units of the parent, src/init_mesh.c:410-414. -/
def childSide (c : Dom) : Side where
  l := fun i => (c.disp i).tdiv 2
  r := fun i => if c.nx i > 1 then (c.disp i + c.nx i).tdiv 2 else 1

/-- Body of the loop over directions, src/init_mesh.c:423-472 (`true` = no error).
`p` is the parent Domain, `nl` its level. -/
def dimOK (ng : Int) (rootNx : Fin 3 → Int) (nl : Nat) (p c : Dom) (i : Fin 3) : Bool :=
  let D1 := p.side
  let D2 := childSide c
  let roffset := (c.disp i + c.nx i).tdiv (2 * irefine nl) - rootNx i
  ¬ ((D2.l i = D1.l i ∧ p.disp i ≠ 0) ∨ (D2.r i = D1.r i ∧ roffset ≠ 0)) ∧
  ¬ (D2.l i < D1.l i ∨ D2.r i > D1.r i) ∧
  ¬ ((2 * (D2.l i - D1.l i) < ng ∧ 2 * (D2.l i - D1.l i) > 0) ∨
     (2 * (D1.r i - D2.r i) < ng ∧ 2 * (D1.r i - D2.r i) > 0))

/-- Step 5 for one parent and one potential child, src/init_mesh.c:410-473. -/
def pairOK (ng : Int) (rootNx : Fin 3 → Int) (nl : Nat) (p c : Dom) : Bool :=
  if touching p.side (childSide c) then
    ∀ i : Fin 3, i.val < nDims rootNx → dimOK ng rootNx nl p c i
  else true

/-- Domains of level `nl`, in the order of the input file (src/init_mesh.c:247-255). -/
def onLevel (ds : List Dom) (nl : Nat) : List Dom := ds.filter (fun d => d.level = nl)

/-- Step 4, src/init_mesh.c:374-394: levels `maxlevel … 1`. -/
def step4 (ds : List Dom) : Nat → Bool
  | 0 => true
  | n+1 => step4Level (onLevel ds (n+1)) && step4 ds n

/-- Step 5, src/init_mesh.c:398-475: levels `0 … maxlevel-1`. -/
def step5 (ng : Int) (rootNx : Fin 3 → Int) (ds : List Dom) : Nat → Bool
  | 0 => true
  | n+1 => step5 ng rootNx ds n &&
      (onLevel ds n).all (fun p => (onLevel ds (n+1)).all (fun c => pairOK ng rootNx n p c))

/-- Steps 1-5 of `init_mesh`, src/init_mesh.c:111-475.  The result is the list of Domains in input
order; Domain `nd` of level `nl` is element `nd` of `onLevel ds nl`. -/
def initMesh (ng : Int) (bs : List Block) : Res (List Dom) :=
  let maxl := maxLevel bs
  if ¬ levelsNonEmpty bs maxl then .fatal
  else if countLevel bs 0 ≠ 1 then .fatal
  else
    match bs.find? (fun b => b.level = 0) with
    | none => .fatal
    | some root =>
      if ¬ rootOK root.nx then .fatal
      else
        match makeDoms root.nx bs with
        | .fatal => .fatal
        | .ub => .ub
        | .ok ds =>
          if ¬ step4 ds maxl then .fatal
          else if ¬ step5 ng root.nx ds maxl then .fatal
          else .ok ds

end Athena.Mesh
