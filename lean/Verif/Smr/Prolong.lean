import Verif.Smr.Pro
import Verif.Smr.Restrict

/-!
# src/smr.c: `Prolongate`

One parent Grid sends its zones (Step 1) and one child Grid sets its ghost zones from the message (Steps 2 and 3).  An element of a message
holds the words of one zone: the members of `ConsS` and, with MHD, `B1i`, `B2i`, `B3i`; the number of words per zone is the same on both sides.
`Real` is an arbitrary ordered field (no rounding).  The bounds of the arrays are not modelled.
-/

namespace Athena.Smr

/-- One zone of a message, of `GZ[id]` and `BFld[id]`. -/
structure Cell (R : Type*) (ns : Nat) where
  u : ConsS R ns
  b1 : R
  b2 : R
  b3 : R

/-- Cell-centred and face-centred variables of a Grid. -/
structure PGrd (R : Type*) (ns : Nat) where
  U : Z3 → ConsS R ns
  B1 : Z3 → R
  B2 : Z3 → R
  B3 : Z3 → R

/-- What both sides know: `nghost`, `nDim`, which boundaries of the overlap have `myFlx != NULL`, the overlap on the parent
(`CGrid[ncg].ijks/ijke`) and on the child (`PGrid[npg].ijks/ijke`), options, and the zone sizes of the child. -/
structure Ovl (R : Type*) where
  ng : ℕ
  nDim : ℕ
  flx : Fin 6 → Bool
  c : Box
  f : Box
  cf : ProCfg
  dx1 : R
  dx2 : R
  dx3 : R

variable {R : Type*} [Field R] [LinearOrder R] {ns : Nat}

namespace Ovl
variable (o : Ovl R)

/-- `for (dim=0; dim<(2*nDim); dim++) if (myFlx[dim] != NULL)`: src/smr.c:1456-1457, 1587-1588. -/
def dims : List (Fin 6) := (List.finRange 6).filter fun d => d.val < 2 * o.nDim && o.flx d

/-- `ics..ice`, `jcs..jce`, `kcs..kce`: src/smr.c:1461-1482. -/
def src (d : Fin 6) : Box :=
  let h : ℤ := (o.ng : ℤ) / 2
  let b : Box :=
    { is := o.c.is - h - 1
      ie := o.c.ie + h + 1
      js := if 1 < o.nDim then o.c.js - h - 1 else o.c.js
      je := if 1 < o.nDim then o.c.je + h + 1 else o.c.je
      ks := if 2 < o.nDim then o.c.ks - h - 1 else o.c.ks
      ke := if 2 < o.nDim then o.c.ke + h + 1 else o.c.ke }
  if d = 0 then { b with ie := o.c.is }
  else if d = 1 then { b with is := o.c.ie }
  else if d = 2 then { b with je := o.c.js }
  else if d = 3 then { b with js := o.c.je }
  else if d = 4 then { b with ke := o.c.ks }
  else { b with ks := o.c.ke }

/-- The loops over a box. -/
def loop (b : Box) : List Z3 := rng b.ks b.ke ×ˢ (rng b.js b.je ×ˢ rng b.is b.ie)

/-- Step 1a for one boundary: src/smr.c:1487-1510. -/
def send1 (P : PGrd R ns) (d : Fin 6) : List (Cell R ns) :=
  (loop (o.src d)).map fun x => ⟨P.U x, P.B1 x, P.B2 x, P.B3 x⟩

/-- The message: src/smr.c:1456-1512. -/
def send (P : PGrd R ns) : List (Cell R ns) := o.dims.flatMap (o.send1 P)

/-- `id`: src/smr.c:1594-1613. -/
def gid (d : Fin 6) : Fin 3 := ⟨d.val / 2, by omega⟩

/-- `igzs..igze`, `jgzs..jgze`, `kgzs..kgze`: src/smr.c:1594-1636. -/
def gz (d : Fin 6) : Box :=
  let thin : ℤ := (o.ng : ℤ) / 2 + 2
  let ngz1 := if gid d = 0 then thin else (o.f.ie - o.f.is + 1) / 2 + o.ng + 2
  let ngz2 := if gid d = 1 then thin else (o.f.je - o.f.js + 1) / 2 + o.ng + 2
  let ngz3 := if gid d = 2 then thin else (o.f.ke - o.f.ks + 1) / 2 + o.ng + 2
  { is := 0
    ie := ngz1 - 1
    js := if 1 < o.nDim then 0 else 1
    je := if 1 < o.nDim then ngz2 - 1 else 1
    ks := if 2 < o.nDim then 0 else 1
    ke := if 2 < o.nDim then ngz3 - 1 else 1 }

/-- Loading `GZ[id]`, `BFld[id]` in the order of the loops: src/smr.c:1640-1663.  Elements that the loops do not reach, or for which the
message is too short, keep what they held. -/
def load (G : Z3 → Cell R ns) (L : List Z3) (msg : List (Cell R ns)) : Z3 → Cell R ns :=
  fun x => ((L.zip msg).lookup x).getD (G x)

/-- The copies into the neighbours in missing directions: src/smr.c:1667-1689.  (`BFld` is not copied in 1D, where it is not used.) -/
def copies (b : Box) (G : Z3 → Cell R ns) : Z3 → Cell R ns := fun x =>
  if o.nDim = 1 ∧ b.is ≤ x.2.2 ∧ x.2.2 ≤ b.ie ∧
      ((x.1 = 1 ∧ (x.2.1 = 0 ∨ x.2.1 = 2)) ∨ ((x.1 = 0 ∨ x.1 = 2) ∧ x.2.1 = 1)) then G (1, 1, x.2.2)
  else if o.nDim = 2 ∧ b.is ≤ x.2.2 ∧ x.2.2 ≤ b.ie ∧ b.js ≤ x.2.1 ∧ x.2.1 ≤ b.je ∧ (x.1 = 0 ∨ x.1 = 2) then G (1, x.2.1, x.2.2)
  else G x

/-- `ips..ipe`, `jps..jpe`, `kps..kpe`: src/smr.c:1694-1715. -/
def dst (d : Fin 6) : Box :=
  let b : Box :=
    { is := o.f.is - o.ng
      ie := o.f.ie + o.ng
      js := if 1 < o.nDim then o.f.js - o.ng else o.f.js
      je := if 1 < o.nDim then o.f.je + o.ng else o.f.je
      ks := if 2 < o.nDim then o.f.ks - o.ng else o.f.ks
      ke := if 2 < o.nDim then o.f.ke + o.ng else o.f.ke }
  if d = 0 then { b with ie := o.f.is - 1 }
  else if d = 1 then { b with is := o.f.ie + 1 }
  else if d = 2 then { b with je := o.f.js - 1 }
  else if d = 3 then { b with js := o.f.je + 1 }
  else if d = 4 then { b with ke := o.f.ks - 1 }
  else { b with ks := o.f.ke + 1 }

/-- `for (i=ips, ii=1; i<=ipe; i+=2, ii++)`: src/smr.c:1719-1721. -/
def pairs (a b : ℤ) : List (ℤ × ℤ) := (List.range ((b - a) / 2 + 1).toNat).map fun n : ℕ => (a + 2 * (n : ℤ), 1 + (n : ℤ))

/-- `nend`, `mend`: src/smr.c:1617-1636. -/
def nend : ℤ := if 2 < o.nDim then 1 else 0
def mend : ℤ := if 1 < o.nDim then 1 else 0

/-- `0` or `1` as an index of `ProlongedC`. -/
def bit (t : ℤ) : Fin 2 := if t = 0 then 0 else 1

/-- The zones written for one `k, j, i`: the loops over `n, m, l`, src/smr.c:1730-1732. -/
def inBlock (k j i : ℤ) (x : Z3) : Prop := (k ≤ x.1 ∧ x.1 ≤ k + o.nend) ∧ (j ≤ x.2.1 ∧ x.2.1 ≤ j + o.mend) ∧ (i ≤ x.2.2 ∧ x.2.2 ≤ i + 1)

instance (k j i : ℤ) (x : Z3) : Decidable (o.inBlock k j i x) := by unfold inBlock; infer_instance

/-- Step 3b for one `k, j, i`: src/smr.c:1723-1749. -/
def setCons (bad : ConsS R ns → Bool) (G : Z3 → Cell R ns) (p : (ℤ × ℤ) × (ℤ × ℤ) × (ℤ × ℤ)) (U : Z3 → ConsS R ns) : Z3 → ConsS R ns :=
  let k := p.1.1
  let kk := p.1.2
  let j := p.2.1.1
  let jj := p.2.1.2
  let i := p.2.2.1
  let ii := p.2.2.2
  let pc := proCon o.cf bad (G (kk, jj, ii-1)).u (G (kk, jj, ii)).u (G (kk, jj, ii+1)).u (G (kk, jj-1, ii)).u (G (kk, jj+1, ii)).u
    (G (kk-1, jj, ii)).u (G (kk+1, jj, ii)).u
  fun x => if o.inBlock k j i x then pc (bit (x.1 - k)) (bit (x.2.1 - j)) (bit (x.2.2 - i)) else U x

/-- `BGZ[3][3][3]` (0 outside the array): src/smr.c:1773-1780. -/
def bgz (G : Z3 → Cell R ns) (kk jj ii : ℤ) : Fld R where
  x1 := fun n m l => if n ≤ 2 ∧ m ≤ 2 ∧ l ≤ 2 then (G (kk + ((n : ℤ) - 1), jj + ((m : ℤ) - 1), ii + ((l : ℤ) - 1))).b1 else 0
  x2 := fun n m l => if n ≤ 2 ∧ m ≤ 2 ∧ l ≤ 2 then (G (kk + ((n : ℤ) - 1), jj + ((m : ℤ) - 1), ii + ((l : ℤ) - 1))).b2 else 0
  x3 := fun n m l => if n ≤ 2 ∧ m ≤ 2 ∧ l ≤ 2 then (G (kk + ((n : ℤ) - 1), jj + ((m : ℤ) - 1), ii + ((l : ℤ) - 1))).b3 else 0

/-- `((a >= (ps+nghost)) || (myFlx[lo]==NULL)) && ((a < (pe-nghost)) || (myFlx[hi]==NULL))`, e.g. src/smr.c:1790-1791. -/
def between (a ps pe : ℤ) (lo hi : Fin 6) : Bool := (ps + o.ng ≤ a || !o.flx lo) && (a < pe - o.ng || !o.flx hi)

/-- `ProlongedF` before `ProFld`: zero, or the fine field on the boundary of the Domain, src/smr.c:1762-1879. -/
def known (d : Fin 6) (B : PGrd R ns) (k j i : ℤ) : Fld R where
  x1 := fun n m l =>
    let b := o.dst d
    let up : ℤ := if o.nDim = 3 ∧ o.between k b.ks b.ke 4 5 then (n : ℤ) else 0
    if d = 0 ∧ i = b.ie - 1 ∧ o.between j b.js b.je 2 3 ∧ l = 2 ∧ n ≤ 1 ∧ m ≤ 1 then B.B1 (k + up, j + (m : ℤ), i + 2)
    else if d = 1 ∧ i = b.is ∧ o.between j b.js b.je 2 3 ∧ l = 0 ∧ n ≤ 1 ∧ m ≤ 1 then B.B1 (k + up, j + (m : ℤ), i)
    else 0
  x2 := fun n m l =>
    let b := o.dst d
    let up : ℤ := if o.nDim = 3 ∧ o.between k b.ks b.ke 4 5 then (n : ℤ) else 0
    if d = 2 ∧ j = b.je - 1 ∧ o.between i b.is b.ie 0 1 ∧ m = 2 ∧ n ≤ 1 ∧ l ≤ 1 then B.B2 (k + up, j + 2, i + (l : ℤ))
    else if d = 3 ∧ j = b.js ∧ o.between i b.is b.ie 0 1 ∧ m = 0 ∧ n ≤ 1 ∧ l ≤ 1 then B.B2 (k + up, j, i + (l : ℤ))
    else 0
  x3 := fun n m l =>
    let b := o.dst d
    if d = 4 ∧ k = b.ke - 1 ∧ o.between i b.is b.ie 0 1 ∧ o.between j b.js b.je 2 3 ∧ n = 2 ∧ m ≤ 1 ∧ l ≤ 1 then
      B.B3 (k + 2, j + (m : ℤ), i + (l : ℤ))
    else if d = 5 ∧ k = b.ks ∧ o.between i b.is b.ie 0 1 ∧ o.between j b.js b.je 2 3 ∧ n = 0 ∧ m ≤ 1 ∧ l ≤ 1 then
      B.B3 (k, j + (m : ℤ), i + (l : ℤ))
    else 0

/-- Step 3c for one `k, j, i`: src/smr.c:1755-1760 (1D), 1881-1899 (2D, 3D). -/
def setFld (G : Z3 → Cell R ns) (d : Fin 6) (p : (ℤ × ℤ) × (ℤ × ℤ) × (ℤ × ℤ)) (B : PGrd R ns) : PGrd R ns :=
  let k := p.1.1
  let kk := p.1.2
  let j := p.2.1.1
  let jj := p.2.1.2
  let i := p.2.2.1
  let ii := p.2.2.2
  let b := o.dst d
  if o.nDim = 1 then
    { U := B.U
      B1 := fun x => if o.inBlock k j i x then (B.U x).b1 else B.B1 x
      B2 := fun x => if o.inBlock k j i x then (B.U x).b2 else B.B2 x
      B3 := fun x => if o.inBlock k j i x then (B.U x).b3 else B.B3 x }
  else
    let F := proFld o.cf (bgz G kk jj ii) (o.known d B k j i) o.dx1 o.dx2 o.dx3
    let n := fun x : Z3 => (x.1 - k).toNat
    let m := fun x : Z3 => (x.2.1 - j).toNat
    let l := fun x : Z3 => (x.2.2 - i).toNat
    { U := fun x => if o.inBlock k j i x then
        { B.U x with
          b1 := 1/2 * (F.x1 (n x) (m x) (l x) + F.x1 (n x) (m x) (l x + 1))
          b2 := 1/2 * (F.x2 (n x) (m x) (l x) + F.x2 (n x) (m x + 1) (l x))
          b3 := 1/2 * (F.x3 (n x) (m x) (l x) + F.x3 (n x + 1) (m x) (l x)) } else B.U x
      B1 := fun x => if o.inBlock k j i x ∧ (d ≠ 1 ∨ x.2.2 ≠ b.is) then F.x1 (n x) (m x) (l x) else B.B1 x
      B2 := fun x => if o.inBlock k j i x ∧ (d ≠ 3 ∨ x.2.1 ≠ b.js) then F.x2 (n x) (m x) (l x) else B.B2 x
      B3 := fun x => if o.inBlock k j i x ∧ (d ≠ 5 ∨ x.1 ≠ b.ks) then F.x3 (n x) (m x) (l x) else B.B3 x }

/-- The body of the loops over `k, j, i`: src/smr.c:1719-1903. -/
def body (bad : ConsS R ns → Bool) (G : Z3 → Cell R ns) (d : Fin 6) (B : PGrd R ns) (p : (ℤ × ℤ) × (ℤ × ℤ) × (ℤ × ℤ)) : PGrd R ns :=
  let B := { B with U := o.setCons bad G p B.U }
  if o.cf.mhd then o.setFld G d p B else B

/-- The loops over `k, j, i`: src/smr.c:1719-1721. -/
def blocks (d : Fin 6) : List ((ℤ × ℤ) × (ℤ × ℤ) × (ℤ × ℤ)) :=
  let b := o.dst d
  pairs b.ks b.ke ×ˢ (pairs b.js b.je ×ˢ pairs b.is b.ie)

/-- The receiver: the child, the arrays `GZ[0..2]`/`BFld[0..2]`, and the rest of the message. -/
structure Rcv (R : Type*) (ns : Nat) where
  B : PGrd R ns
  G : Fin 3 → Z3 → Cell R ns
  rest : List (Cell R ns)

/-- Step 3 for one boundary: src/smr.c:1588-1905. -/
def recv1 (bad : ConsS R ns → Bool) (s : Rcv R ns) (d : Fin 6) : Rcv R ns :=
  let b := o.gz d
  let L := loop b
  let G := o.copies b (load (s.G (gid d)) L (s.rest.take L.length))
  { B := (o.blocks d).foldl (o.body bad G d) s.B
    G := fun t => if t = gid d then G else s.G t
    rest := s.rest.drop L.length }

/-- `Prolongate` as seen by a child Grid with one parent Grid: src/smr.c:1587-1906. -/
def prolongate (bad : ConsS R ns → Bool) (G : Fin 3 → Z3 → Cell R ns) (P C : PGrd R ns) : PGrd R ns :=
  (o.dims.foldl (o.recv1 bad) ⟨C, G, o.send P⟩).B

end Ovl

end Athena.Smr
