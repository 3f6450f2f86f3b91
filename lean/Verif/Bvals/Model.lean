import Verif.Base
import Mathlib.Logic.Function.Basic
import Mathlib.Data.Fintype.Pi

/-!
# Boundary values of the gas: src/bvals_mhd.c

Arrays are functions on index triples; an access outside the allocated array is undefined behaviour.
The 24 functions for the physical boundaries are one function with the direction, the side and the kind as
arguments, and so are the 12 functions packing and unpacking messages: in the source the functions for
the six sides are copies of each other with the indices permuted.  In every direction the directions done
before are covered with their ghost zones, the ones to come without.
-/

namespace Athena.Bvals

/-- Indices `(i, j, k)` of `[k][j][i]`. -/
abbrev Idx := Fin 3 → Int

/-- Compile-time configuration and the number of ghost zones. -/
structure Cfg where
  ng : Nat
  mhd : Bool
  barotropic : Bool
  nscalars : Nat

/-- Members of `ConsS`, src/athena.h. -/
inductive Var where
  | d
  | M (n : Fin 3)
  | E
  | Bc (n : Fin 3)
  | s (n : Nat)
  deriving DecidableEq

/-- The members that exist in a configuration, in the order in which they are packed
(src/bvals_mhd.c:2342-2357); `NVAR` of src/defs.h.in:164-177 is their number. -/
def vars (c : Cfg) : List Var :=
  [.d, .M 0, .M 1, .M 2] ++ (if c.barotropic then [] else [.E]) ++ (if c.mhd then [.Bc 0, .Bc 1, .Bc 2] else []) ++
    (List.range c.nscalars).map .s

/-- `NVAR`, src/defs.h.in:164-177. -/
def nvar (c : Cfg) : Nat := (if c.barotropic then 4 else 5) + (if c.mhd then 3 else 0) + c.nscalars

/-- A Grid: `Nx`, `U`, and the interface fields `B1i`, `B2i`, `B3i`. -/
structure Grid (V : Type) where
  nx : Fin 3 → Nat
  U : Idx → Var → V
  Bi : Fin 3 → Idx → V

/-- `is`, `js`, `ks`, src/init_grid.c:86-92, 110-116, 134-140. -/
def lo (c : Cfg) (nx : Fin 3 → Nat) (d : Fin 3) : Int := if nx d > 1 then c.ng else 0

/-- `ie`, `je`, `ke`. -/
def hi (c : Cfg) (nx : Fin 3 → Nat) (d : Fin 3) : Int := if nx d > 1 then nx d + c.ng - 1 else 0

/-- Size of the arrays, src/init_grid.c:153-166. -/
def size (c : Cfg) (nx : Fin 3 → Nat) (d : Fin 3) : Int := if nx d > 1 then nx d + 2 * c.ng else 1

/-- The access is inside the array. -/
def inB (c : Cfg) (nx : Fin 3 → Nat) (x : Idx) : Bool :=
  (0 ≤ x 0 && x 0 < size c nx 0) && (0 ≤ x 1 && x 1 < size c nx 1) && (0 ≤ x 2 && x 2 < size c nx 2)

/-- `for (i=a; i<=b; i++)`. -/
def rng (a b : Int) : List Int := (List.range (b + 1 - a).toNat).map (fun n : Nat => a + n)

/-- Ranges of the three loops. -/
abbrev Rng := Fin 3 → Int × Int

def mkIdx (i j k : Int) : Idx := fun t => if t = 0 then i else if t = 1 then j else k

/-- The triple loop over `k`, `j`, `i`. -/
def box (r : Rng) : List Idx :=
  (rng (r 2).1 (r 2).2).flatMap fun k => (rng (r 1).1 (r 1).2).flatMap fun j =>
    (rng (r 0).1 (r 0).2).map fun i => mkIdx i j k

/-- Loop ranges for zones in a function for direction `d`, except in direction `d`: the directions before `d`
with ghost zones (e.g. src/bvals_mhd.c:1077), the ones after without (e.g. 964-965). -/
def trU (c : Cfg) (nx : Fin 3 → Nat) (d : Fin 3) : Rng := fun t =>
  if t < d then (lo c nx t - c.ng, hi c nx t + c.ng) else (lo c nx t, hi c nx t)

/-- The same for the interface field of direction `n`, `n` other than `d`: "B1i is not set at i=is-nghost"
(e.g. src/bvals_mhd.c:1087-1090), and `ju=je+1`, `ku=ke+1` (e.g. 985, 994). -/
def trB (c : Cfg) (nx : Fin 3 → Nat) (d n : Fin 3) : Rng := fun t =>
  if t = n then
    if n < d then (lo c nx n - (c.ng - 1), hi c nx n + c.ng)
    else (lo c nx n, if nx n > 1 then hi c nx n + 1 else hi c nx n)
  else trU c nx d t

/-- Replace the range (or the index) of direction `d`. -/
abbrev setD {α : Type} (r : Fin 3 → α) (d : Fin 3) (p : α) : Fin 3 → α := Function.update r d p

/-- `a[x] = v`. -/
def put {α β : Type} [DecidableEq α] (a : α → β) (x : α) (v : β) : α → β := fun y => if y = x then v else a y

/-- A loop with the body `a[dst] = f(a[src])`. -/
def copyLoop {α : Type} (l : List Idx) (dst src : Idx → Idx) (f : α → α) (a : Idx → α) : Idx → α :=
  l.foldl (fun a x => put a (dst x) (f (a (src x)))) a

/-- The same with the bounds checked. -/
def copy {α : Type} (c : Cfg) (nx : Fin 3 → Nat) (r : Rng) (dst src : Idx → Idx) (f : α → α) (a : Idx → α) :
    Res (Idx → α) :=
  if (box r).all (fun x => inB c nx (dst x) && inB c nx (src x)) then .ok (copyLoop (box r) dst src f a) else .ub

/-! ## Physical boundaries -/

/-- The boundary functions; `later` is `ProlongateLater` (src/bvals_mhd.c:2300-2303). -/
inductive Kind where
  | reflect | outflow | periodic | conduct | later
  deriving DecidableEq

inductive Side where
  | inner | outer
  deriving DecidableEq

/-- Index of the ghost zone at depth `i`: `is-i`, `ie+i`. -/
def dstI (sd : Side) (s e i : Int) : Int := match sd with | .inner => s - i | .outer => e + i

/-- Index of the zone copied to depth `i`:
reflect src/bvals_mhd.c:967, 1022, 1080, 1138, 1197, 1252; outflow 1310, 1356, 1402, 1450, 1538, 1583 ff.;
periodic 1640-1930; conduct as reflect 1945-2290. -/
def srcI (k : Kind) (sd : Side) (s e i : Int) : Int :=
  match k, sd with
  | .reflect, .inner | .conduct, .inner => s + (i - 1)
  | .reflect, .outer | .conduct, .outer => e - (i - 1)
  | .outflow, .inner => s
  | .outflow, .outer => e
  | .periodic, .inner => e - (i - 1)
  | .periodic, .outer => s + (i - 1)
  | .later, _ => 0

/-- Index of the face copied to `is-i` (`ie+i`) for the normal component of the interface field:
reflect src/bvals_mhd.c:979, 1034, 1103, 1161, 1221, 1276; outflow 1321, 1370 (the source is `B1i[ie]`), …;
periodic and conduct likewise. -/
def srcF (k : Kind) (sd : Side) (s e i : Int) : Int :=
  match k, sd with
  | .reflect, .inner | .conduct, .inner => s + i
  | .reflect, .outer | .conduct, .outer => e - (i - 2)
  | .outflow, .inner => s
  | .outflow, .outer => e
  | .periodic, .inner => e - (i - 1)
  | .periodic, .outer => s + (i - 1)
  | .later, _ => 0

/-- The members of `ConsS` that change sign: `M1` and `B1c` in reflect_ix1 (src/bvals_mhd.c:968-971);
`M1`, `B2c` and `B3c` in conduct_ix1 (1958-1962); likewise in the other directions. -/
def flips (k : Kind) (d : Fin 3) (v : Var) : Bool :=
  match k, v with
  | .reflect, .M n | .conduct, .M n => n = d
  | .reflect, .Bc n => n = d
  | .conduct, .Bc n => n ≠ d
  | _, _ => false

/-- `U[dst] = U[src]; U[dst].M1 = -U[dst].M1; …` -/
def flipU {V : Type} [Neg V] (k : Kind) (d : Fin 3) (u : Var → V) : Var → V :=
  fun v => if flips k d v then - u v else u v

/-- Sign of the transverse interface fields: reversed by conduct (e.g. src/bvals_mhd.c:1980). -/
def signT {V : Type} [Neg V] (k : Kind) (v : V) : V := if k = .conduct then -v else v

/-- Sign of the normal interface field: reversed by reflect (e.g. src/bvals_mhd.c:979). -/
def signN {V : Type} [Neg V] (k : Kind) (v : V) : V := if k = .reflect then -v else v

/-- The normal interface field, e.g. src/bvals_mhd.c:974-983 (reflect_ix1), 1028-1036 (reflect_ox1),
1316-1324 (outflow_ix1).  The assignment `B1i[k][j][is] = 0.0` of reflect is done in the same loop over `k`, `j`
in the source; here it is a loop of its own. -/
def bcNormal {V : Type} [Neg V] [Zero V] (c : Cfg) (k : Kind) (sd : Side) (d : Fin 3) (nx : Fin 3 → Nat)
    (b : Idx → V) : Res (Idx → V) := do
  let s := lo c nx d
  let e := hi c nx d
  let z : Int := match sd with | .inner => s | .outer => e + 1
  let b ← bif k = .reflect then
      copy c nx (setD (trU c nx d) d (1, 1)) (fun x => setD x d z) (fun x => setD x d z) (fun _ => 0) b
    else .ok b
  let r : Int × Int := match sd with | .inner => (1, c.ng - 1) | .outer => (2, c.ng)
  copy c nx (setD (trU c nx d) d r) (fun x => setD x d (dstI sd s e (x d)))
    (fun x => setD x d (srcF k sd s e (x d))) (signN k) b

/-- The loop range of the interface field of direction `n` in a function for another direction `d`.
conduct_ix2 starts `B1i` at `is-nghost` (src/bvals_mhd.c:2094-2100). -/
def trBk (c : Cfg) (nx : Fin 3 → Nat) (k : Kind) (sd : Side) (d n : Fin 3) : Rng :=
  if k = .conduct ∧ sd = .inner ∧ d = 1 ∧ n = 0 then setD (trB c nx d n) 0 (lo c nx 0 - c.ng, hi c nx 0 + c.ng)
  else trB c nx d n

/-- A transverse interface field, e.g. src/bvals_mhd.c:985-1000. -/
def bcTrans {V : Type} [Neg V] (c : Cfg) (k : Kind) (sd : Side) (d n : Fin 3) (nx : Fin 3 → Nat)
    (b : Idx → V) : Res (Idx → V) :=
  copy c nx (setD (trBk c nx k sd d n) d (1, c.ng)) (fun x => setD x d (dstI sd (lo c nx d) (hi c nx d) (x d)))
    (fun x => setD x d (srcI k sd (lo c nx d) (hi c nx d) (x d))) (signT k) b

def bcFace {V : Type} [Neg V] [Zero V] (c : Cfg) (k : Kind) (sd : Side) (d n : Fin 3) (nx : Fin 3 → Nat)
    (b : Idx → V) : Res (Idx → V) :=
  if n = d then bcNormal c k sd d nx b else bcTrans c k sd d n nx b

/-- The zones, e.g. src/bvals_mhd.c:964-972. -/
def bcCells {V : Type} [Neg V] (c : Cfg) (k : Kind) (sd : Side) (d : Fin 3) (nx : Fin 3 → Nat)
    (u : Idx → Var → V) : Res (Idx → Var → V) :=
  copy c nx (setD (trU c nx d) d (1, c.ng)) (fun x => setD x d (dstI sd (lo c nx d) (hi c nx d) (x d)))
    (fun x => setD x d (srcI k sd (lo c nx d) (hi c nx d) (x d))) (flipU k d) u

/-- The three interface fields. -/
def mapFaces {V : Type} (f : Fin 3 → (Idx → V) → Res (Idx → V)) (b : Fin 3 → Idx → V) : Res (Fin 3 → Idx → V) := do
  let b0 ← f 0 (b 0)
  let b1 ← f 1 (b 1)
  let b2 ← f 2 (b 2)
  return fun n => if n = 0 then b0 else if n = 1 then b1 else b2

/-- A boundary function, src/bvals_mhd.c:954-2303. -/
def bcFun {V : Type} [Neg V] [Zero V] (c : Cfg) (k : Kind) (sd : Side) (d : Fin 3) (g : Grid V) : Res (Grid V) :=
  if k = .later then .ok g
  else do
    let u ← bcCells c k sd d g.nx g.U
    let b ← bif c.mhd then mapFaces (fun n => bcFace c k sd d n g.nx) g.Bi else .ok g.Bi
    return ⟨g.nx, u, b⟩

/-! ## Messages -/

/-- Zones packed in direction `d`: src/bvals_mhd.c:2341 (`is … is+(nghost-1)`), 2409 (`ie-(nghost-1) … ie`), …-/
def packR (c : Cfg) (sd : Side) (s e : Int) : Int × Int :=
  match sd with | .inner => (s, s + (c.ng - 1)) | .outer => (e - (c.ng - 1), e)

/-- Faces of the normal field packed: src/bvals_mhd.c:2366, 2434, … -/
def packRn (c : Cfg) (sd : Side) (s e : Int) : Int × Int :=
  match sd with | .inner => (s + 1, s + (c.ng - 1)) | .outer => (e - (c.ng - 2), e)

/-- Zones unpacked: src/bvals_mhd.c:2768 (`is-nghost … is-1`), 2834 (`ie+1 … ie+nghost`), … -/
def unpR (c : Cfg) (sd : Side) (s e : Int) : Int × Int :=
  match sd with | .inner => (s - c.ng, s - 1) | .outer => (e + 1, e + c.ng)

/-- Faces of the normal field unpacked: src/bvals_mhd.c:2792, 2858, … -/
def unpRn (c : Cfg) (sd : Side) (s e : Int) : Int × Int :=
  match sd with | .inner => (s - (c.ng - 1), s - 1) | .outer => (e + 2, e + c.ng)

/-- Loop ranges for the field of direction `n` in a pack or unpack function of direction `d`. -/
def msgRng (c : Cfg) (nx : Fin 3 → Nat) (d n : Fin 3) (pc pn : Int × Int) : Rng :=
  if n = d then setD (trU c nx d) d pn else setD (trB c nx d n) d pc

def packFace {V : Type} (c : Cfg) (sd : Side) (d n : Fin 3) (g : Grid V) : Res (List V) :=
  let r := msgRng c g.nx d n (packR c sd (lo c g.nx d) (hi c g.nx d)) (packRn c sd (lo c g.nx d) (hi c g.nx d))
  if (box r).all (inB c g.nx) then .ok ((box r).map (g.Bi n)) else .ub

def packFaces {V : Type} (c : Cfg) (sd : Side) (d : Fin 3) (g : Grid V) : Res (List V) := do
  let b0 ← packFace c sd d 0 g
  let b1 ← packFace c sd d 1 g
  let b2 ← packFace c sd d 2 g
  return b0 ++ (b1 ++ b2)

/-- `pack_ix1` … `pack_ox3`, src/bvals_mhd.c:2306-2742: the words stored in the send buffer. -/
def pack {V : Type} (c : Cfg) (sd : Side) (d : Fin 3) (g : Grid V) : Res (List V) := do
  let r := setD (trU c g.nx d) d (packR c sd (lo c g.nx d) (hi c g.nx d))
  let b ← bif c.mhd then packFaces c sd d g else .ok []
  if (box r).all (inB c g.nx) then return (box r).flatMap (fun x => (vars c).map (g.U x)) ++ b else .ub

/-- `pG->U[k][j][i].d = *(pRcv++); …`; reading past the received words is undefined behaviour. -/
def readVars {V : Type} : List Var → (Var → V) → List V → Res ((Var → V) × List V)
  | [], u, m => .ok (u, m)
  | _ :: _, _, [] => .ub
  | v :: vs, u, w :: m => readVars vs (put u v w) m

def readCells {V : Type} (c : Cfg) (nx : Fin 3 → Nat) : List Idx → (Idx → Var → V) → List V →
    Res ((Idx → Var → V) × List V)
  | [], u, m => .ok (u, m)
  | x :: xs, u, m =>
    if inB c nx x then do
      let r ← readVars (vars c) (u x) m
      readCells c nx xs (put u x r.1) r.2
    else .ub

def readFace {V : Type} (c : Cfg) (nx : Fin 3 → Nat) : List Idx → (Idx → V) → List V → Res ((Idx → V) × List V)
  | [], b, m => .ok (b, m)
  | _ :: _, _, [] => .ub
  | x :: xs, b, w :: m => if inB c nx x then readFace c nx xs (put b x w) m else .ub

def unpackFaces {V : Type} (c : Cfg) (sd : Side) (d : Fin 3) (nx : Fin 3 → Nat) (b : Fin 3 → Idx → V)
    (m : List V) : Res ((Fin 3 → Idx → V) × List V) := do
  let r := fun n => msgRng c nx d n (unpR c sd (lo c nx d) (hi c nx d)) (unpRn c sd (lo c nx d) (hi c nx d))
  let b0 ← readFace c nx (box (r 0)) (b 0) m
  let b1 ← readFace c nx (box (r 1)) (b 1) b0.2
  let b2 ← readFace c nx (box (r 2)) (b 2) b1.2
  return (fun n => if n = 0 then b0.1 else if n = 1 then b1.1 else b2.1, b2.2)

/-- `unpack_ix1` … `unpack_ox3`, src/bvals_mhd.c:2744-3172, applied to the received words; also the words
left over. -/
def unpack {V : Type} (c : Cfg) (sd : Side) (d : Fin 3) (g : Grid V) (m : List V) : Res (Grid V × List V) := do
  let u ← readCells c g.nx (box (setD (trU c g.nx d) d (unpR c sd (lo c g.nx d) (hi c g.nx d)))) g.U m
  let b ← bif c.mhd then unpackFaces c sd d g.nx g.Bi u.2 else .ok (g.Bi, u.2)
  return (⟨g.nx, u.1, b.1⟩, b.2)

/-- `cnt`, src/bvals_mhd.c:189-197 (x1), 290-297 (x2), 404-409 (x3). -/
def cnt (c : Cfg) (nx : Fin 3 → Nat) (d : Fin 3) : Int :=
  let cnt2 : Int := if nx 1 > 1 then nx 1 + 1 else 1
  let cnt3 : Int := if nx 2 > 1 then nx 2 + 1 else 1
  let g : Int := c.ng
  if d = 0 then
    g * nx 1 * nx 2 * nvar c +
      if c.mhd then (g - 1) * nx 1 * nx 2 + g * cnt2 * nx 2 + g * nx 1 * cnt3 else 0
  else if d = 1 then
    (nx 0 + 2 * g) * g * nx 2 * nvar c +
      if c.mhd then (nx 0 + 2 * g - 1) * g * nx 2 + (nx 0 + 2 * g) * (g - 1) * nx 2 + (nx 0 + 2 * g) * g * cnt3
      else 0
  else
    (nx 0 + 2 * g) * (nx 1 + 2 * g) * g * nvar c +
      if c.mhd then (nx 0 + 2 * g - 1) * (nx 1 + 2 * g) * g + (nx 0 + 2 * g) * (nx 1 + 2 * g - 1) * g +
        (nx 0 + 2 * g) * (nx 1 + 2 * g) * (g - 1) else 0

/-- Position of a Grid in the array of Grids of a Domain. -/
abbrev Coord := Fin 3 → Nat

/-- A Domain: the number of Grids and their sizes in each direction, and the boundary functions.  The Grids of a
Domain form a product: `GData[n][m][l].Nx[0]` depends on `l` only (src/init_mesh.c:560-590). -/
structure Dom where
  NG : Fin 3 → Nat
  nx : Fin 3 → Nat → Nat
  bcIn : Fin 3 → Kind
  bcOut : Fin 3 → Kind

/-- `GData[n][m][l].Nx`. -/
def Dom.gnx (D : Dom) (C : Coord) : Fin 3 → Nat := fun t => D.nx t (C t)

/-- All Grids of the Domain, src/bvals_mhd.c:838-840. -/
def Dom.coords (D : Dom) : List Coord :=
  (List.range (D.NG 2)).flatMap fun n => (List.range (D.NG 1)).flatMap fun m =>
    (List.range (D.NG 0)).map fun l => fun t => if t = 0 then l else if t = 1 then m else n

/-- Contribution of a Grid to `x1cnt`, `x2cnt`, `x3cnt`, src/bvals_mhd.c:843-873. -/
def area (c : Cfg) (nx : Fin 3 → Nat) (d : Fin 3) : Nat :=
  let p1 := fun t => if nx t > 1 then nx t + 1 else nx t
  let pg := fun t => if nx t > 1 then nx t + 2 * c.ng else nx t
  if d = 0 then p1 1 * p1 2 else if d = 1 then pg 0 * p1 2 else pg 0 * pg 1

/-- `x1cnt`, `x2cnt`, `x3cnt` after a Domain, src/bvals_mhd.c:838-877. -/
def domCnt (c : Cfg) (D : Dom) (d : Fin 3) (x : Nat) : Nat :=
  if D.NG d > 1 then D.coords.foldl (fun a C => if area c (D.gnx C) d > a then area c (D.gnx C) d else a) x else x

/-- `size`: words allocated for a buffer, src/bvals_mhd.c:838-892, for the Domains with Grids on this process. -/
def bufSize (c : Cfg) (Ds : List Dom) : Nat :=
  let x := fun d => Ds.foldl (fun a D => domCnt c D d a) 0
  let sz := if x 0 > x 1 then x 0 else x 1
  let sz := if x 2 > sz then x 2 else sz
  sz * (c.ng * (if c.mhd then nvar c + 3 else nvar c))

/-- `lx1_id` … : the Grid to the left; src/init_grid.c sets the neighbours inside the Domain, bvals_mhd_init
those across periodic boundaries (src/bvals_mhd.c:569-573, 676-680, 782-786). -/
def left (D : Dom) (d : Fin 3) (C : Coord) : Option Coord :=
  if C d > 0 then some (setD C d (C d - 1))
  else if D.bcIn d = .periodic ∧ D.NG d > 1 then some (setD C d (D.NG d - 1))
  else none

/-- `rx1_id` … (src/bvals_mhd.c:617-621, 724-728, 829-833). -/
def right (D : Dom) (d : Fin 3) (C : Coord) : Option Coord :=
  if C d + 1 < D.NG d then some (setD C d (C d + 1))
  else if D.bcOut d = .periodic ∧ D.NG d > 1 then some (setD C d 0)
  else none

/-- `pack_…` and `MPI_Isend(&(send_buf[…][0]),cnt,…)`: overflowing the buffer or sending words that were not
packed is undefined behaviour. -/
def send {V : Type} (c : Cfg) (sz : Nat) (sd : Side) (d : Fin 3) (g : Grid V) : Res (List V) := do
  let p ← pack c sd d g
  if p.length ≤ sz ∧ cnt c g.nx d ≤ p.length then .ok (p.take (cnt c g.nx d).toNat) else .ub

/-- `MPI_Irecv(&(recv_buf[…][0]),cnt,…)`, `MPI_Wait`, `unpack_…`: a longer message is an MPI error. -/
def recv {V : Type} (c : Cfg) (sz : Nat) (sd : Side) (d : Fin 3) (m : List V) (g : Grid V) : Res (Grid V) :=
  if cnt c g.nx d > sz then .ub
  else if (m.length : Int) > cnt c g.nx d then .fatal
  else do return (← unpack c sd d g m).1

/-- The message from the left neighbour `l` of `C` (tag `LtoR_tag`): it only comes if the right neighbour of
`l` is `C` and `l` has more than one zone in this direction (`if (pGrid->Nx[0] > 1)`); otherwise `MPI_Wait` never
returns (`ub`). -/
def fromLeft {V : Type} (c : Cfg) (sz : Nat) (D : Dom) (d : Fin 3) (C l : Coord) (gl : Grid V) : Res (List V) :=
  if right D d l = some C ∧ gl.nx d > 1 then send c sz .outer d gl else .ub

/-- The message from the right neighbour (tag `RtoL_tag`). -/
def fromRight {V : Type} (c : Cfg) (sz : Nat) (D : Dom) (d : Fin 3) (C r : Coord) (gr : Grid V) : Res (List V) :=
  if left D d r = some C ∧ gr.nx d > 1 then send c sz .inner d gr else .ub

/-- One direction of `bvals_mhd` on the Grid `C` (src/bvals_mhd.c:186-284, 287-383, 401-497).  `st` are the
Grids before this direction: every Grid packs its messages before it changes anything.  `ord` is
the order in which the two receives complete (`MPI_Waitany`). -/
def stage {V : Type} [Neg V] [Zero V] (c : Cfg) (sz : Nat) (D : Dom) (ord : Bool) (d : Fin 3)
    (st : Coord → Res (Grid V)) (C : Coord) : Res (Grid V) := do
  let g ← st C
  if g.nx d > 1 then
    match left D d C, right D d C with
    | some l, some r => do
      let mL ← fromLeft c sz D d C l (← st l)
      let mR ← fromRight c sz D d C r (← st r)
      if ord then recv c sz .outer d mR (← recv c sz .inner d mL g)
      else recv c sz .inner d mL (← recv c sz .outer d mR g)
    | none, some r => do
      let mR ← fromRight c sz D d C r (← st r)
      let g ← bcFun c (D.bcIn d) .inner d g
      recv c sz .outer d mR g
    | some l, none => do
      let mL ← fromLeft c sz D d C l (← st l)
      let g ← bcFun c (D.bcOut d) .outer d g
      recv c sz .inner d mL g
    | none, none => do
      let g ← bcFun c (D.bcIn d) .inner d g
      bcFun c (D.bcOut d) .outer d g
  else .ok g

/-- `bvals_mhd` on all Grids of a Domain, src/bvals_mhd.c:175-500: x1, then x2, then x3.  `ord` gives the
completion orders in each direction on each Grid. -/
def bvals {V : Type} [Neg V] [Zero V] (c : Cfg) (sz : Nat) (D : Dom) (ord : Fin 3 → Coord → Bool)
    (st : Coord → Grid V) : Coord → Res (Grid V) :=
  let st0 : Coord → Res (Grid V) := fun C => .ok (st C)
  let st1 := fun C => stage c sz D (ord 0 C) 0 st0 C
  let st2 := fun C => stage c sz D (ord 1 C) 1 st1 C
  fun C => stage c sz D (ord 2 C) 2 st2 C

end Athena.Bvals
