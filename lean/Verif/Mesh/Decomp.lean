import Verif.Base
import Mathlib.Data.Nat.Sqrt

/-!
# src/init_mesh.c: automatic domain decomposition, division of Domains into Grids, rank assignment

All C `int`s involved are non-negative here and are modelled by unbounded `Nat`
(simplification: the overflow of the cost `I`, which the code tries to detect by `I < 0`
at src/init_mesh.c:994-996, does not occur in the model).
-/

namespace Athena.Mesh

/-! ## `dom_decomp_2d` -/

/-- `for(rx=rxs; rx>=rx_min; rx--) if (Np % rx == 0) … break;`, src/init_mesh.c:920-929.
Structural recursion on `rx`; `rx_min ≥ 1` so that `rx = 0` is never divided by. -/
def searchDown (Np rxmin : Nat) : Nat → Option Nat
  | 0 => none
  | rx+1 => if rx + 1 < rxmin then none
            else if Np % (rx+1) = 0 then some (rx+1) else searchDown Np rxmin rx

/-- `for(rx=rxs+1; rx<=rx_max; rx++) if (Np % rx == 0) … break;`, src/init_mesh.c:932-946;
`fuel` is the number of values left. -/
def searchUp (Np : Nat) : Nat → Nat → Option Nat
  | 0, _ => none
  | fuel+1, rx => if Np % rx = 0 then some rx else searchUp Np fuel (rx+1)

/-- `I = (rx - 1)*Ny + (ry - 1)*(Nx + 2*nghost*rx)`, src/init_mesh.c:925,936. -/
def cost2 (ng Nx Ny rx ry : Nat) : Nat := (rx - 1) * Ny + (ry - 1) * (Nx + 2*ng*rx)

/-- `rx_max`, src/init_mesh.c:907. -/
def rxMax2 (Nx Np : Nat) : Nat := if Nx < Np then Nx else Np

/-- `rx_min`, src/init_mesh.c:908-913: smallest integer ≥ Np/Ny if `Ny < Np`, else 1. -/
def rxMin2 (Ny Np : Nat) : Nat :=
  if Ny < Np then Np / Ny + (if Np % Ny > 0 then 1 else 0) else 1

/-- `rxs = (int)sqrt((double)(Nx*Np)/(double)(Ny > 2*nghost ? Ny-2*nghost : 1))`,
src/init_mesh.c:904, in exact arithmetic: the integer square root of the integer quotient. -/
def rxIdeal (ng Nx Ny Np : Nat) : Nat :=
  Nat.sqrt (Nx * Np / (if Ny > 2*ng then Ny - 2*ng else 1))

/-- `rxs` clamped to `[rx_min, rx_max]`, src/init_mesh.c:916-917. -/
def rxStart (ng Nx Ny Np : Nat) : Nat :=
  let rxs := rxIdeal ng Nx Ny Np
  let rxs := if rxs > rxMin2 Ny Np then rxs else rxMin2 Ny Np
  if rxs < rxMax2 Nx Np then rxs else rxMax2 Nx Np

/-- `dom_decomp_2d`, src/init_mesh.c:895-954. `none` is the return value 1.
`Np % Ny` with `Ny = 0` would be undefined; the caller guarantees `Ny > 1`. -/
def decomp2 (ng Nx Ny Np : Nat) : Option (Nat × Nat) :=
  let rxs := rxStart ng Nx Ny Np
  let rxmax := rxMax2 Nx Np
  let dn := searchDown Np (rxMin2 Ny Np) rxs
  let up := searchUp Np (rxmax - rxs) (rxs+1)
  match dn, up with
  | none, none => none
  | some r, none => some (r, Np / r)
  | none, some r => some (r, Np / r)
  | some r, some s =>
    if cost2 ng Nx Ny s (Np / s) < cost2 ng Nx Ny r (Np / r) then some (s, Np / s)
    else some (r, Np / r)

/-! ## `dom_decomp_3d` -/

/-- `I`, src/init_mesh.c:991-992. -/
def cost3 (ng Nx Ny Nz rx ry rz : Nat) : Nat :=
  (rx - 1)*Ny*Nz + (ry - 1)*(Nx + 2*ng*rx)*Nz + (rz - 1)*(Nx + 2*ng*rx)*(Ny + 2*ng*ry)

/-- `rx_min` of the 3D routine, src/init_mesh.c:975-981. -/
def rxMin3 (Ny Nz Np : Nat) : Nat :=
  let t := (if Ny < Np then Ny else Np) * (if Nz < Np then Nz else Np)
  if t < Np then Np / t + (if Np % t > 0 then 1 else 0) else 1

/-- Body of the loop src/init_mesh.c:983-1007 for one `rx`; `best` is `none` while `init` is set,
otherwise `(rx0,ry0,rz0)` (whose cost is `I0`). -/
def step3 (ng Nx Ny Nz Np : Nat) (best : Option (Nat × Nat × Nat)) (rx : Nat) :
    Option (Nat × Nat × Nat) :=
  if Np % rx = 0 then
    match decomp2 ng Ny Nz (Np / rx) with
    | none => best
    | some (ry, rz) =>
      match best with
      | none => some (rx, ry, rz)
      | some (a, b, c) =>
        if cost3 ng Nx Ny Nz rx ry rz < cost3 ng Nx Ny Nz a b c then some (rx, ry, rz)
        else some (a, b, c)
  else best

/-- The loop `for(rx = rx_min; rx <= rx_max; rx++)`, src/init_mesh.c:983-1007. -/
def loop3 (ng Nx Ny Nz Np : Nat) : Nat → Nat → Option (Nat × Nat × Nat) →
    Option (Nat × Nat × Nat)
  | 0, _, best => best
  | fuel+1, rx, best => loop3 ng Nx Ny Nz Np fuel (rx+1) (step3 ng Nx Ny Nz Np best rx)

/-- `dom_decomp_3d`, src/init_mesh.c:964-1016. -/
def decomp3 (ng Nx Ny Nz Np : Nat) : Option (Nat × Nat × Nat) :=
  let rxmin := rxMin3 Ny Nz Np
  let rxmax := if Nx < Np then Nx else Np
  loop3 ng Nx Ny Nz Np (rxmax + 1 - rxmin) rxmin none

/-- `dom_decomp`, src/init_mesh.c:858-877. -/
def domDecomp (ng Nx Ny Nz Np : Nat) : Option (Nat × Nat × Nat) :=
  if Nx > 1 ∧ Ny = 1 ∧ Nz = 1 then
    if Np > Nx then none else some (Np, 1, 1)
  else if Nx > 1 ∧ Ny > 1 ∧ Nz = 1 then
    match decomp2 ng Nx Ny Np with
    | none => none
    | some (a, b) => some (a, b, 1)
  else if Nx > 1 ∧ Ny > 1 ∧ Nz > 1 then decomp3 ng Nx Ny Nz Np
  else none

/-! ## Division of a Domain into Grids (one direction) -/

/-- Number of zones of Grid `l` in a direction with `Nx` zones and `NG` Grids:
`xdiv.quot`, plus one for the first `xdiv.rem` Grids (src/init_mesh.c:550, 560, 568-592).
`div(Nx,0)` is undefined behaviour; the code rejects `NGrid = 0` (src/init_mesh.c:500-505). -/
def gridNx (Nx NG l : Nat) : Nat := Nx / NG + (if l < Nx % NG then 1 else 0)

/-- Displacement of Grid `l`: running sum from the Domain's displacement,
src/init_mesh.c:597-625. -/
def gridDisp (disp Nx NG : Nat) : Nat → Nat
  | 0 => disp
  | l+1 => gridDisp disp Nx NG l + gridNx Nx NG l

/-! ## Assignment of Grids to ranks -/

/-- `GData[n][m][l].ID_Comm_world = next_procID++; if (next_procID > Nproc-1) next_procID = 0;`
for `cnt` Grids (src/init_mesh.c:557-563).  Returns the IDs in loop order and the next ID. -/
def assignIDs (P : Nat) : Nat → Nat → List Nat × Nat
  | 0, next => ([], next)
  | cnt+1, next =>
    let next' := if next + 1 > P - 1 then 0 else next + 1
    let r := assignIDs P cnt next'
    (next :: r.1, r.2)

/-- The loop over Domains, src/init_mesh.c:484-628: a Domain needing more Grids than there are
ranks is a fatal error (src/init_mesh.c:536-539). -/
def assignDomains (P : Nat) : List Nat → Nat → Res (List (List Nat) × Nat)
  | [], next => .ok ([], next)
  | cnt :: rest, next =>
    if cnt > P then .fatal
    else
      let r := assignIDs P cnt next
      match assignDomains P rest r.2 with
      | .ok (ids, nx) => .ok (r.1 :: ids, nx)
      | .fatal => .fatal
      | .ub => .ub

/-- Step 6 of `init_mesh` as far as rank assignment goes (src/init_mesh.c:482-634), with the final
test `next_procID != 0` (src/init_mesh.c:633-634). -/
def assignAll (P : Nat) (cnts : List Nat) : Res (List (List Nat)) :=
  match assignDomains P cnts 0 with
  | .ok (ids, nx) => if nx ≠ 0 then .fatal else .ok ids
  | .fatal => .fatal
  | .ub => .ub

end Athena.Mesh
