import Mathlib.Tactic.Linarith
import Mathlib.Tactic.Ring
import Mathlib.Algebra.Field.Basic
import Mathlib.Data.List.ProdSigma

/-!
# src/smr.c: `RestrictCorrect`

One child Grid sends a message to one parent Grid (Step 3) and the parent Grid unpacks it (Steps 1 and 2).
`Real` is an arbitrary field (no rounding).  Arrays are total functions of the indices; the bounds of the
arrays are not modelled.  A message is the list of its words.
-/

namespace Athena.Smr

/-- Indices `(k,j,i)`. -/
abbrev Z3 := ℤ × ℤ × ℤ

/-- Members of `ConsS`: `f n` are density, momenta, energy and scalars, `b m` the cell-centred field. -/
inductive Var (nf : Nat) where
  | f (n : Fin nf)
  | b (m : Fin 3)
deriving DecidableEq

/-- The box `ijks[]..ijke[]` of a `GridOvrlpS`. -/
structure Box where
  ks : ℤ
  ke : ℤ
  js : ℤ
  je : ℤ
  is : ℤ
  ie : ℤ

/-- `for (i=a; i<=b; i++)`. -/
def rng (a b : ℤ) : List ℤ := (List.range (b + 1 - a).toNat).map fun n : ℕ => a + (n : ℤ)

/-- `for (i=a; i<=b; i+=2)`. -/
def rng2 (a b : ℤ) : List ℤ := (List.range ((b - a) / 2 + 1).toNat).map fun n : ℕ => a + 2 * (n : ℤ)

/-- A Grid as far as used here. -/
structure Grid (R : Type*) (nf : Nat) where
  U : Z3 × Var nf → R
  B : Fin 3 → Z3 → R

/-- The overlap of a child Grid with a parent, seen from the child (`PGrid[npg]`), with the options:
`nDim`, MHD, order of the variables in the message (`vs`; `NVAR = vs.length`). -/
structure Child (R : Type*) (nf : Nat) where
  nDim : Nat
  mhd : Bool
  vs : List (Var nf)
  box : Box
  g : Grid R nf
  flx : Fin 6 → Option (ℤ → ℤ → Var nf → R)
  emf1 : Fin 6 → Option (ℤ → ℤ → R)
  emf2 : Fin 6 → Option (ℤ → ℤ → R)
  emf3 : Fin 6 → Option (ℤ → ℤ → R)

variable {R : Type*} [Field R] {nf : Nat}

/-! ## Step 3: the child sends -/

/-- Position the write pointer at word `n` (it is computed independently of what has been written): the
words after it are overwritten later; if fewer than `n` words have been written the message contains
undefined words (`none`). -/
def seek (n : ℤ) (buf : List R) : Option (List R) :=
  if n.toNat ≤ buf.length then some (buf.take n.toNat) else none

/-- `for (i=..; i<..+n; i++) *(pSnd++) *= fact;` leaving the pointer after `n` words. -/
def scale (n : ℤ) (fact : R) (buf : List R) : Option (List R) :=
  (seek n buf).map fun b => b.map (· * fact)

namespace Child
variable (c : Child R nf)

/-- The loops over `k,j,i` in steps of 2 and over the variables. -/
def consIdx : List (Z3 × Var nf) :=
  (rng2 c.box.ks c.box.ke ×ˢ (rng2 c.box.js c.box.je ×ˢ rng2 c.box.is c.box.ie)) ×ˢ c.vs

/-- `nCons`: src/smr.c:871, 898, 935. -/
def nCons : ℤ :=
  let nk := c.box.ke - c.box.ks + 1
  let nj := c.box.je - c.box.js + 1
  let ni := c.box.ie - c.box.is + 1
  if c.nDim = 3 then nk*nj*ni*c.vs.length/8
  else if c.nDim = 2 then nj*ni*c.vs.length/4
  else ni*c.vs.length/2

/-- Step 3a, src/smr.c:846-941 (`pG->Nx[1]>1`, `pG->Nx[2]>1` are `nDim ≥ 2`, `nDim = 3`). -/
def sendCons : Option (List R) :=
  let u := fun (k j i : ℤ) v => c.g.U ((k, j, i), v)
  let b1 := c.consIdx.map fun x => u x.1.1 x.1.2.1 x.1.2.2 x.2 + u x.1.1 x.1.2.1 (x.1.2.2+1) x.2
  let b2 := if 2 ≤ c.nDim then
      List.zipWith (· + ·) b1 (c.consIdx.map fun x =>
        u x.1.1 (x.1.2.1+1) x.1.2.2 x.2 + u x.1.1 (x.1.2.1+1) (x.1.2.2+1) x.2)
    else b1
  let b3 := if 3 ≤ c.nDim then
      List.zipWith (· + ·) b2 (c.consIdx.map fun x =>
        u (x.1.1+1) x.1.2.1 x.1.2.2 x.2 + u (x.1.1+1) x.1.2.1 (x.1.2.2+1) x.2 +
        u (x.1.1+1) (x.1.2.1+1) x.1.2.2 x.2 + u (x.1.1+1) (x.1.2.1+1) (x.1.2.2+1) x.2)
    else b2
  let fact : R := if 3 ≤ c.nDim then 1/8 else if 2 ≤ c.nDim then 1/4 else 1/2
  scale c.nCons fact b3

/-- Step 3b, 3D: src/smr.c:949-978. -/
def sendFld3 : List R :=
  let B := fun m (k j i : ℤ) => c.g.B m (k, j, i)
  (if c.box.is < c.box.ie then
    (rng2 c.box.ks c.box.ke ×ˢ (rng2 c.box.js c.box.je ×ˢ rng2 c.box.is (c.box.ie+1))).map fun x =>
      1/4*(B 0 x.1 x.2.1 x.2.2 + B 0 x.1 (x.2.1+1) x.2.2 + B 0 (x.1+1) x.2.1 x.2.2
        + B 0 (x.1+1) (x.2.1+1) x.2.2) else []) ++
  (if c.box.js < c.box.je then
    (rng2 c.box.ks c.box.ke ×ˢ (rng2 c.box.js (c.box.je+1) ×ˢ rng2 c.box.is c.box.ie)).map fun x =>
      1/4*(B 1 x.1 x.2.1 x.2.2 + B 1 x.1 x.2.1 (x.2.2+1) + B 1 (x.1+1) x.2.1 x.2.2
        + B 1 (x.1+1) x.2.1 (x.2.2+1)) else []) ++
  (if c.box.ks < c.box.ke then
    (rng2 c.box.ks (c.box.ke+1) ×ˢ (rng2 c.box.js c.box.je ×ˢ rng2 c.box.is c.box.ie)).map fun x =>
      1/4*(B 2 x.1 x.2.1 x.2.2 + B 2 x.1 x.2.1 (x.2.2+1) + B 2 x.1 (x.2.1+1) x.2.2
        + B 2 x.1 (x.2.1+1) (x.2.2+1)) else [])

/-- Step 3b, 2D: src/smr.c:980-996. -/
def sendFld2 : List R :=
  let B := fun m (j i : ℤ) => c.g.B m (c.box.ks, j, i)
  (if c.box.is < c.box.ie then
    (rng2 c.box.js c.box.je ×ˢ rng2 c.box.is (c.box.ie+1)).map fun x =>
      1/2*(B 0 x.1 x.2 + B 0 (x.1+1) x.2) else []) ++
  (if c.box.js < c.box.je then
    (rng2 c.box.js (c.box.je+1) ×ˢ rng2 c.box.is c.box.ie).map fun x =>
      1/2*(B 1 x.1 x.2 + B 1 x.1 (x.2+1)) else [])

/-- `nFld`: src/smr.c:958, 967, 976, 987, 994. -/
def nFld : ℤ :=
  let nk := (c.box.ke - c.box.ks + 1)/2
  let nj := (c.box.je - c.box.js + 1)/2
  let ni := (c.box.ie - c.box.is + 1)/2
  if c.nDim = 3 then
    (if c.box.is < c.box.ie then nk*nj*(ni+1) else 0) + (if c.box.js < c.box.je then nk*(nj+1)*ni else 0)
      + (if c.box.ks < c.box.ke then (nk+1)*nj*ni else 0)
  else if c.nDim = 2 then
    (if c.box.is < c.box.ie then nj*(ni+1) else 0) + (if c.box.js < c.box.je then (nj+1)*ni else 0)
  else 0

/-- Transverse extents (outer, inner loop) of the overlap on the faces normal to direction `m`, as numbers
`ke-ks` etc.: `(k,j)` for x1, `(k,i)` for x2, `(j,i)` for x3. -/
def trans (m : Fin 3) : ℤ × ℤ :=
  let ek := c.box.ke - c.box.ks
  let ej := c.box.je - c.box.js
  let ei := c.box.ie - c.box.is
  if m = 0 then (ek, ej) else if m = 1 then (ek, ei) else (ej, ei)

/-- Normal direction of the boundary `dim`. -/
def normal (d : Fin 6) : Fin 3 := ⟨d.val / 2, by omega⟩

/-- `nFlx`: src/smr.c:1027, 1052, 1078, 1118, 1144, 1206. -/
def nFlx (d : Fin 6) : ℤ :=
  let t := c.trans (normal d)
  let nv : ℤ := c.vs.length
  if normal d = 2 then ((t.1+1)*(t.2+1)/4)*nv
  else if normal d = 0 ∧ c.nDim = 1 then nv
  else if c.nDim = 3 then ((t.1+1)*(t.2+1)/4)*nv
  else ((t.2+1)/2)*nv

/-- The words of Step 3c for the boundary `d` with fluxes `F`: src/smr.c:1002-1088 (x1), 1092-1153 (x2),
1155-1213 (x3). -/
def fluxWords (d : Fin 6) (F : ℤ → ℤ → Var nf → R) : Option (List R) :=
  if normal d = 0 ∧ c.nDim = 1 then some (c.vs.map fun v => F c.box.ks c.box.js v)
  else
    let t := c.trans (normal d)
    let idx := (rng2 0 t.1 ×ˢ rng2 0 t.2) ×ˢ c.vs
    let b1 := idx.map fun x => F x.1.1 x.1.2 x.2 + F x.1.1 (x.1.2+1) x.2
    let two := normal d = 2 ∨ c.nDim = 3
    let b2 := if two then List.zipWith (· + ·) b1 (idx.map fun x =>
        F (x.1.1+1) x.1.2 x.2 + F (x.1.1+1) (x.1.2+1) x.2) else b1
    scale (c.nFlx d) (if two then 1/4 else 1/2) b2

/-- Step 3c for all boundaries in the order of the code; the pair is the message so far and `cnt`. -/
def sendFlx (s : List R × ℤ) : List (Fin 6) → Option (List R × ℤ)
  | [] => some s
  | d :: ds =>
    match c.flx d with
    | none => sendFlx s ds
    | some F =>
      (seek s.2 s.1).bind fun b => (c.fluxWords d F).bind fun w => sendFlx (b ++ w, s.2 + c.nFlx d) ds

/-- Step 3d: words of boundary `d`: src/smr.c:1215-1251 (x1), 1253-1284 (x2), 1286-1305 (x3).  Using an array
that is not there (`NULL`) is the outcome `none`. -/
def emfWords (d : Fin 6) : Option (List R) :=
  let ek := c.box.ke - c.box.ks
  let ej := c.box.je - c.box.js
  let ei := c.box.ie - c.box.is
  if normal d = 0 then
    match c.emf3 d with
    | none => some []
    | some e3 =>
      if c.nDim < 3 then some ((rng2 0 ek ×ˢ rng2 0 (ej+1)).map fun x => e3 x.1 x.2)
      else (c.emf2 d).map fun e2 =>
        ((rng2 0 ek ×ˢ rng2 0 (ej+1)).map fun x => 1/2*(e3 x.1 x.2 + e3 (x.1+1) x.2)) ++
        ((rng2 0 (ek+1) ×ˢ rng2 0 ej).map fun x => 1/2*(e2 x.1 x.2 + e2 x.1 (x.2+1)))
  else if normal d = 1 then
    match c.emf3 d with
    | none => some []
    | some e3 =>
      if c.nDim < 3 then some ((rng2 0 ek ×ˢ rng2 0 (ei+1)).map fun x => e3 x.1 x.2)
      else (c.emf1 d).map fun e1 =>
        ((rng2 0 ek ×ˢ rng2 0 (ei+1)).map fun x => 1/2*(e3 x.1 x.2 + e3 (x.1+1) x.2)) ++
        ((rng2 0 (ek+1) ×ˢ rng2 0 ei).map fun x => 1/2*(e1 x.1 x.2 + e1 x.1 (x.2+1)))
  else
    match c.emf1 d with
    | none => some []
    | some e1 => (c.emf2 d).map fun e2 =>
      ((rng2 0 (ej+1) ×ˢ rng2 0 ei).map fun x => 1/2*(e1 x.1 x.2 + e1 x.1 (x.2+1))) ++
        ((rng2 0 ej ×ˢ rng2 0 (ei+1)).map fun x => 1/2*(e2 x.1 x.2 + e2 (x.1+1) x.2))

/-- Step 3d for a list of boundaries. -/
def sendEmf : List (Fin 6) → Option (List R)
  | [] => some []
  | d :: ds => (c.emfWords d).bind fun w => (sendEmf ds).map fun r => w ++ r

/-- The boundaries in loop order. -/
def dims : List (Fin 6) := [0, 1, 2, 3, 4, 5]

/-- The whole message, Step 3: src/smr.c:821-1307. -/
def send : Option (List R) :=
  c.sendCons.bind fun b0 =>
    let b1 := if c.mhd then b0 ++ (if c.nDim = 3 then c.sendFld3 else if c.nDim = 2 then c.sendFld2 else [])
      else b0
    let cnt := if c.mhd then c.nCons + c.nFld else c.nCons
    (c.sendFlx (b1, cnt) dims).bind fun s =>
      if c.mhd then (c.sendEmf dims).map fun e => s.1 ++ e else some s.1

end Child

/-! ## Steps 1 and 2: the parent unpacks -/

/-- State of the parent Grid while unpacking: `U`, face fields, and the static arrays `SMRemf1,2,3`. -/
structure PState (R : Type*) (nf : Nat) where
  U : Z3 × Var nf → R
  B : Fin 3 → Z3 → R
  e : Fin 3 → ℤ × ℤ → R

/-- The overlap seen from the parent (`CGrid[ncg]`), with the options and sizes used. -/
structure Parent (R : Type*) (nf : Nat) where
  nDim : Nat
  mhd : Bool
  vs : List (Var nf)
  box : Box
  ie : ℤ
  je : ℤ
  ke : ℤ
  dt : R
  dx : Fin 3 → R
  flx : Fin 6 → Option (ℤ → ℤ → Var nf → R)
  emf1 : Fin 6 → Option (ℤ → ℤ → R)
  emf2 : Fin 6 → Option (ℤ → ℤ → R)
  emf3 : Fin 6 → Option (ℤ → ℤ → R)

/-- Array with one element changed. -/
def upd {ι α : Type*} [DecidableEq ι] (a : ι → α) (i : ι) (x : α) : ι → α := fun p => if p = i then x else a p

/-- Execute a list of statements each of which reads one word (`*(pRcv++)`); reading beyond the message is
the outcome `none`. -/
def pops {S : Type*} : List (R → S → S) → S × List R → Option (S × List R)
  | [], s => some s
  | _ :: _, (_, []) => none
  | f :: fs, (s, x :: xs) => pops fs (f x s, xs)

/-- A statement that reads no words. -/
def pur {S : Type*} (f : S → S) : S × List R → Option (S × List R) := fun s => some (f s.1, s.2)

/-- Sequence. -/
def seqs {S : Type*} : List (S × List R → Option (S × List R)) → S × List R → Option (S × List R)
  | [], s => some s
  | f :: fs, s => (f s).bind (seqs fs)

namespace PState
variable (s : PState R nf)

/-- `U[k][j][i].v = x`. -/
def setU (z : Z3) (v : Var nf) (x : R) : PState R nf := { s with U := upd s.U (z, v) x }
/-- `B?i[k][j][i] = x`. -/
def setB (m : Fin 3) (z : Z3) (x : R) : PState R nf :=
  { s with B := fun n => if n = m then upd (s.B m) z x else s.B n }
/-- `SMRemf?[a][b] = x`. -/
def setE (m : Fin 3) (p : ℤ × ℤ) (x : R) : PState R nf :=
  { s with e := fun n => if n = m then upd (s.e m) p x else s.e n }

end PState

namespace Parent
variable (p : Parent R nf)

/-- Type of the program pieces. -/
abbrev Prog (R : Type*) (nf : Nat) := PState R nf × List R → Option (PState R nf × List R)

/-- Loop over `k,j,i` of the overlap box. -/
def zones : List Z3 := rng p.box.ks p.box.ke ×ˢ (rng p.box.js p.box.je ×ˢ rng p.box.is p.box.ie)

/-- Step 1b: src/smr.c:203-227. -/
def injectU : Prog R nf := pops ((p.zones ×ˢ p.vs).map fun x w s => s.setU x.1 x.2 w)

/-- Read a word and store it in a face if no flux correction will be made (`myFlx[d] == NULL`), skip it
otherwise. -/
def faceOrSkip (d : Fin 6) (m : Fin 3) (z : Z3) : R → PState R nf → PState R nf := fun w s =>
  if (p.flx d).isNone then s.setB m z w else s

/-- Unconditional store. -/
def face (m : Fin 3) (z : Z3) : R → PState R nf → PState R nf := fun w s => s.setB m z w

/-- One row of `B1i`: loop `i=ics+1..ice` with the words for `ics` and `ice+1` read in its first and last
iteration: src/smr.c:243-261, 296-316. -/
def rowB1 (k j : ℤ) : List (R → PState R nf → PState R nf) :=
  (rng (p.box.is+1) p.box.ie).flatMap fun i =>
    (if i = p.box.is+1 then [p.faceOrSkip 0 0 (k, j, p.box.is)] else []) ++
    [face 0 (k, j, i)] ++
    (if i = p.box.ie then [p.faceOrSkip 1 0 (k, j, p.box.ie+1)] else [])

/-- Rows of `B2i` in plane `k`: `jcs` (if `jcs<jce`), `jcs+1..jce`, `jce+1` (if `jcs<jce`):
src/smr.c:263-290, 318-340 (in 3D the middle loop is also inside the test, which is then no
difference as it is empty). -/
def planeB2 (k : ℤ) : List (R → PState R nf → PState R nf) :=
  (if p.box.js < p.box.je then
    (rng p.box.is p.box.ie).map fun i => p.faceOrSkip 2 1 (k, p.box.js, i) else []) ++
  ((rng (p.box.js+1) p.box.je ×ˢ rng p.box.is p.box.ie).map fun x => face 1 (k, x.1, x.2)) ++
  (if p.box.js < p.box.je then
    (rng p.box.is p.box.ie).map fun i => p.faceOrSkip 3 1 (k, p.box.je+1, i) else [])

/-- `B3i` in 3D: src/smr.c:342-371. -/
def volB3 : List (R → PState R nf → PState R nf) :=
  (if p.box.ks < p.box.ke then
    (rng p.box.js p.box.je ×ˢ rng p.box.is p.box.ie).map fun x => p.faceOrSkip 4 2 (p.box.ks, x.1, x.2)
   else []) ++
  ((rng (p.box.ks+1) p.box.ke ×ˢ (rng p.box.js p.box.je ×ˢ rng p.box.is p.box.ie)).map fun z => face 2 z) ++
  (if p.box.ks < p.box.ke then
    (rng p.box.js p.box.je ×ˢ rng p.box.is p.box.ie).map fun x => p.faceOrSkip 5 2 (p.box.ke+1, x.1, x.2)
   else [])

/-- Face on the right of face `z` in direction `m`. -/
def nextF (m : Fin 3) (z : Z3) : Z3 :=
  if m = 0 then (z.1, z.2.1, z.2.2+1) else if m = 1 then (z.1, z.2.1+1, z.2.2) else (z.1+1, z.2.1, z.2.2)

/-- `U[z].B?c = 0.5*(B?i[z] + B?i[z+1])`. -/
def centre (m : Fin 3) (z : Z3) (s : PState R nf) : PState R nf :=
  s.setU z (.b m) (1/2*(s.B m z + s.B m (nextF m z)))

/-- Step 1c: src/smr.c:229-380. -/
def injectB : Prog R nf :=
  if p.nDim = 1 then
    pur fun s => (rng p.box.is p.box.ie).foldl (fun s i =>
      let z := (p.box.ks, p.box.js, i)
      ((s.setB 0 z (s.U (z, .b 0))).setB 1 z (s.U (z, .b 1))).setB 2 z (s.U (z, .b 2))) s
  else if p.nDim = 2 then
    seqs [pops ((rng p.box.js p.box.je).flatMap fun j => p.rowB1 p.box.ks j),
      pops (p.planeB2 p.box.ks),
      pur fun s => (rng p.box.js p.box.je ×ˢ rng p.box.is p.box.ie).foldl (fun s x =>
        let z := (p.box.ks, x.1, x.2)
        let s' := centre 1 z (centre 0 z s)
        s'.setB 2 z (s'.U (z, .b 2))) s]
  else
    seqs [pops ((rng p.box.ks p.box.ke ×ˢ rng p.box.js p.box.je).flatMap fun x => p.rowB1 x.1 x.2),
      pops (if p.box.js < p.box.je then (rng p.box.ks p.box.ke).flatMap fun k => p.planeB2 k else []),
      pops p.volB3,
      pur fun s => p.zones.foldl (fun s z => centre 2 z (centre 1 z (centre 0 z s))) s]

/-- Transverse loops (outer, inner) on the faces normal to `m`: their bounds. -/
def tb (m : Fin 3) : (ℤ × ℤ) × (ℤ × ℤ) :=
  if m = 0 then ((p.box.ks, p.box.ke), (p.box.js, p.box.je))
  else if m = 1 then ((p.box.ks, p.box.ke), (p.box.is, p.box.ie))
  else ((p.box.js, p.box.je), (p.box.is, p.box.ie))

/-- The zone outside the overlap next to boundary `d` with transverse indices `(a,b)`. -/
def outside (d : Fin 6) (x : ℤ × ℤ) : Z3 :=
  if d = 0 then (x.1, x.2, p.box.is - 1) else if d = 1 then (x.1, x.2, p.box.ie + 1)
  else if d = 2 then (x.1, p.box.js - 1, x.2) else if d = 3 then (x.1, p.box.je + 1, x.2)
  else if d = 4 then (p.box.ks - 1, x.1, x.2) else (p.box.ke + 1, x.1, x.2)

/-- `q1,q2,q3`: minus `dt/dx` on the left, plus on the right. -/
def q (d : Fin 6) : R :=
  if d.val % 2 = 0 then -(p.dt / p.dx (Child.normal d)) else p.dt / p.dx (Child.normal d)

/-- Step 2a for boundary `d`: src/smr.c:382-469. -/
def fluxCorr (d : Fin 6) : Prog R nf :=
  match p.flx d with
  | none => fun s => some s
  | some F =>
    let t := p.tb (Child.normal d)
    pops (((rng t.1.1 t.1.2 ×ˢ rng t.2.1 t.2.2) ×ˢ p.vs).map fun x w s =>
      let z := p.outside d x.1
      s.setU z x.2 (s.U (z, x.2) - p.q d * (F (x.1.1 - t.1.1) (x.1.2 - t.2.1) x.2 - w)))

/-- `B?i[z] += x`. -/
def addB (m : Fin 3) (z : Z3) (x : R) (s : PState R nf) : PState R nf := s.setB m z (s.B m z + x)

/-- Read a word into `SMRemf?[e]` and add `c*(E - word)` to a face if `use` holds. -/
def emfPop (e : Fin 3) (ij : ℤ × ℤ) (E c : R) (use : Bool) (m : Fin 3) (z : Z3) :
    R → PState R nf → PState R nf := fun w s =>
  let s' := s.setE e ij w
  if use then addB m z (c*(E - w)) s' else s'

/-- Loop without reading. -/
def each {α : Type*} (l : List α) (f : α → PState R nf → PState R nf) : Prog R nf :=
  pur fun s => l.foldl (fun s x => f x s) s

/-- Step 2b on the x1-faces (`d` = 0, 1): src/smr.c:479-591. -/
def emfCorr1 (d : Fin 6) : Prog R nf :=
  match p.emf3 d with
  | none => fun s => some s
  | some e3 =>
    let b := p.box
    let i := if d = 0 then b.is - 1 else b.ie + 1
    let ib := if d = 0 then b.is else b.ie + 1
    let q1 := p.q d
    let q2 := -(p.dt / p.dx 1)
    let q3 := -(p.dt / p.dx 2)
    let kj := rng b.ks b.ke ×ˢ rng b.js b.je
    seqs [
      pops ((rng b.ks b.ke).flatMap fun k =>
        ((rng b.js b.je).map fun j =>
          emfPop 2 (k - b.ks, j - b.js) (e3 (k - b.ks) (j - b.js)) q1 true 1 (k, j, i)) ++
        [emfPop 2 (k - b.ks, b.je - b.js + 1) (e3 (k - b.ks) (b.je - b.js + 1)) q1
          ((p.emf3 3).isSome || b.je = p.je || b.ie < b.is) 1 (k, b.je + 1, i)]),
      each kj (fun x s => addB 0 (x.1, x.2, ib)
        (-(q2*(e3 (x.1 - b.ks) (x.2 - b.js + 1) - s.e 2 (x.1 - b.ks, x.2 - b.js + 1))
          - q2*(e3 (x.1 - b.ks) (x.2 - b.js) - s.e 2 (x.1 - b.ks, x.2 - b.js)))) s),
      (if b.ie < b.is then each (rng b.ks b.ke) (fun k s =>
          let s' := addB 0 (k, b.js - 1, ib) (-(q2*(e3 (k - b.ks) 0 - s.e 2 (k - b.ks, 0)))) s
          addB 0 (k, b.je + 1, ib)
            (q2*(e3 (k - b.ks) (b.je - b.js + 1) - s'.e 2 (k - b.ks, b.je - b.js + 1))) s')
        else fun s => some s),
      (if p.nDim = 3 then
        match p.emf2 d with
        | none => fun _ => none
        | some e2 => seqs [
          pops (kj.map fun x => emfPop 1 (x.1 - b.ks, x.2 - b.js) (e2 (x.1 - b.ks) (x.2 - b.js)) (-q1) true
            2 (x.1, x.2, i)),
          pops ((rng b.js b.je).map fun j =>
            emfPop 1 (b.ke - b.ks + 1, j - b.js) (e2 (b.ke - b.ks + 1) (j - b.js)) (-q1)
              ((p.emf2 5).isSome || b.ke = p.ke || b.ie < b.is) 2 (b.ke + 1, j, i)),
          each kj (fun x s => addB 0 (x.1, x.2, ib)
            (q3*(e2 (x.1 - b.ks + 1) (x.2 - b.js) - s.e 1 (x.1 - b.ks + 1, x.2 - b.js))
              - q3*(e2 (x.1 - b.ks) (x.2 - b.js) - s.e 1 (x.1 - b.ks, x.2 - b.js))) s),
          (if b.ie < b.is then each (rng b.js b.je) (fun j s =>
              let s' := addB 0 (b.ks - 1, j, ib) (q3*(e2 0 (j - b.js) - s.e 1 (0, j - b.js))) s
              addB 0 (b.ke + 1, j, ib)
                (-(q3*(e2 (b.ke - b.ks + 1) (j - b.js) - s'.e 1 (b.ke - b.ks + 1, j - b.js)))) s')
            else fun s => some s),
          each (rng (b.ks - 1) (b.ke + 1) ×ˢ rng b.js b.je) (fun x => centre 2 (x.1, x.2, i))]
       else fun s => some s),
      each (rng b.ks b.ke) (fun k s =>
        let s' := (rng b.js b.je).foldl (fun s j => centre 0 (k, j, ib - 1) (centre 0 (k, j, ib) s)) s
        (rng (b.js - 1) (b.je + 1)).foldl (fun s j => centre 1 (k, j, i) s) s')]

/-- Step 2b on the x2-faces (`d` = 2, 3): src/smr.c:595-704. -/
def emfCorr2 (d : Fin 6) : Prog R nf :=
  match p.emf3 d with
  | none => fun s => some s
  | some e3 =>
    let b := p.box
    let j := if d = 2 then b.js - 1 else b.je + 1
    let jb := if d = 2 then b.js else b.je + 1
    let q1 := -(p.dt / p.dx 0)
    let q2 := p.q d
    let q3 := -(p.dt / p.dx 2)
    let ki := rng b.ks b.ke ×ˢ rng b.is b.ie
    seqs [
      pops ((rng b.ks b.ke).flatMap fun k =>
        ((rng b.is b.ie).map fun i =>
          emfPop 2 (k - b.ks, i - b.is) (e3 (k - b.ks) (i - b.is)) (-q2) true 0 (k, j, i)) ++
        [emfPop 2 (k - b.ks, b.ie - b.is + 1) (e3 (k - b.ks) (b.ie - b.is + 1)) (-q2)
          ((p.emf3 1).isSome || b.ie = p.ie || b.je < b.js) 0 (k, j, b.ie + 1)]),
      each ki (fun x s => addB 1 (x.1, jb, x.2)
        (q1*(e3 (x.1 - b.ks) (x.2 - b.is + 1) - s.e 2 (x.1 - b.ks, x.2 - b.is + 1))
          - q1*(e3 (x.1 - b.ks) (x.2 - b.is) - s.e 2 (x.1 - b.ks, x.2 - b.is))) s),
      (if b.je < b.js then each (rng b.ks b.ke) (fun k s =>
          let s' := addB 1 (k, jb, b.is - 1) (q1*(e3 (k - b.ks) 0 - s.e 2 (k - b.ks, 0))) s
          addB 1 (k, jb, b.ie + 1)
            (-(q1*(e3 (k - b.ks) (b.ie - b.is + 1) - s'.e 2 (k - b.ks, b.ie - b.is + 1)))) s')
        else fun s => some s),
      (if p.nDim = 3 then
        match p.emf1 d with
        | none => fun _ => none
        | some e1 => seqs [
          pops (ki.map fun x => emfPop 0 (x.1 - b.ks, x.2 - b.is) (e1 (x.1 - b.ks) (x.2 - b.is)) q2 true
            2 (x.1, j, x.2)),
          pops ((rng b.is b.ie).map fun i =>
            emfPop 0 (b.ke - b.ks + 1, i - b.is) (e1 (b.ke - b.ks + 1) (i - b.is)) q2
              ((p.emf1 5).isSome || b.ke = p.ke || b.je < b.js) 2 (b.ke + 1, j, i)),
          each ki (fun x s => addB 1 (x.1, jb, x.2)
            (-(q3*(e1 (x.1 - b.ks + 1) (x.2 - b.is) - s.e 0 (x.1 - b.ks + 1, x.2 - b.is))
              - q3*(e1 (x.1 - b.ks) (x.2 - b.is) - s.e 0 (x.1 - b.ks, x.2 - b.is)))) s),
          (if b.je < b.js then each (rng b.is b.ie) (fun i s =>
              let s' := addB 1 (b.ks - 1, jb, i) (-(q3*(e1 0 (i - b.is) - s.e 0 (0, i - b.is)))) s
              addB 1 (b.ke + 1, jb, i)
                (q3*(e1 (b.ke - b.ks + 1) (i - b.is) - s'.e 0 (b.ke - b.ks + 1, i - b.is))) s')
            else fun s => some s),
          each (rng (b.ks - 1) (b.ke + 1) ×ˢ rng b.is b.ie) (fun x => centre 2 (x.1, j, x.2))]
       else fun s => some s),
      each (rng b.ks b.ke) (fun k s =>
        let s' := (rng (b.is - 1) (b.ie + 1)).foldl (fun s i => centre 0 (k, j, i) s) s
        (rng b.is b.ie).foldl (fun s i => centre 1 (k, jb - 1, i) (centre 1 (k, jb, i) s)) s')]

/-- Step 2b on the x3-faces (`d` = 4, 5): src/smr.c:708-801. -/
def emfCorr3 (d : Fin 6) : Prog R nf :=
  match p.emf1 d with
  | none => fun s => some s
  | some e1 =>
    match p.emf2 d with
    | none => fun _ => none
    | some e2 =>
    let b := p.box
    let k := if d = 4 then b.ks - 1 else b.ke + 1
    let kb := if d = 4 then b.ks else b.ke + 1
    let q1 := -(p.dt / p.dx 0)
    let q2 := -(p.dt / p.dx 1)
    let q3 := p.q d
    let ji := rng b.js b.je ×ˢ rng b.is b.ie
    seqs [
      pops (ji.map fun x => emfPop 0 (x.1 - b.js, x.2 - b.is) (e1 (x.1 - b.js) (x.2 - b.is)) (-q3) true
        1 (k, x.1, x.2)),
      pops ((rng b.is b.ie).map fun i =>
        emfPop 0 (b.je - b.js + 1, i - b.is) (e1 (b.je - b.js + 1) (i - b.is)) (-q3)
          ((p.emf1 3).isSome || b.je = p.je || b.ke < b.ks) 1 (k, b.je + 1, i)),
      pops ((rng b.js b.je).flatMap fun j =>
        ((rng b.is b.ie).map fun i =>
          emfPop 1 (j - b.js, i - b.is) (e2 (j - b.js) (i - b.is)) q3 true 0 (k, j, i)) ++
        [emfPop 1 (j - b.js, b.ie - b.is + 1) (e2 (j - b.js) (b.ie - b.is + 1)) q3
          ((p.emf2 1).isSome || b.ie = p.ie || b.ke < b.ks) 0 (k, j, b.ie + 1)]),
      each ji (fun x s => addB 2 (kb, x.1, x.2)
        (q2*(e1 (x.1 - b.js + 1) (x.2 - b.is) - s.e 0 (x.1 - b.js + 1, x.2 - b.is))
          - q2*(e1 (x.1 - b.js) (x.2 - b.is) - s.e 0 (x.1 - b.js, x.2 - b.is))
          - q1*(e2 (x.1 - b.js) (x.2 - b.is + 1) - s.e 1 (x.1 - b.js, x.2 - b.is + 1))
          + q1*(e2 (x.1 - b.js) (x.2 - b.is) - s.e 1 (x.1 - b.js, x.2 - b.is))) s),
      (if b.ke < b.ks then seqs [
          each (rng b.js b.je) (fun j s =>
            let s' := addB 2 (kb, j, b.is - 1) (-(q1*(e2 (j - b.js) 0 - s.e 1 (j - b.js, 0)))) s
            addB 2 (kb, j, b.ie + 1)
              (q1*(e2 (j - b.js) (b.ie - b.is + 1) - s'.e 1 (j - b.js, b.ie - b.is + 1))) s'),
          each (rng b.is b.ie) (fun i s =>
            let s' := addB 2 (kb, b.js - 1, i) (q2*(e1 0 (i - b.is) - s.e 0 (0, i - b.is))) s
            addB 2 (kb, b.je + 1, i)
              (-(q2*(e1 (b.je - b.js + 1) (i - b.is) - s'.e 0 (b.je - b.js + 1, i - b.is)))) s')]
        else fun s => some s),
      each (rng b.js b.je ×ˢ rng (b.is - 1) (b.ie + 1)) (fun x => centre 0 (k, x.1, x.2)),
      each (rng (b.js - 1) (b.je + 1) ×ˢ rng b.is b.ie) (fun x => centre 1 (k, x.1, x.2)),
      each ji (fun x s => centre 2 (kb - 1, x.1, x.2) (centre 2 (kb, x.1, x.2) s))]

/-- Step 2b: src/smr.c:471-804. -/
def emfCorr : Prog R nf :=
  if 1 < p.nDim then
    seqs [p.emfCorr1 0, p.emfCorr1 1, p.emfCorr2 2, p.emfCorr2 3, p.emfCorr3 4, p.emfCorr3 5]
  else fun s => some s

/-- Steps 1b, 1c, 2a, 2b for one child: src/smr.c:189-806. -/
def unpack : Prog R nf :=
  seqs [p.injectU, (if p.mhd then p.injectB else fun s => some s),
    seqs (Child.dims.map p.fluxCorr), (if p.mhd then p.emfCorr else fun s => some s)]

end Parent

end Athena.Smr
