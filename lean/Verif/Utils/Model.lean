import Verif.Base
import Mathlib.Order.Lattice
import Mathlib.Algebra.Order.Field.Basic
import Mathlib.Data.Rat.Defs
import Mathlib.Algebra.Order.Group.Abs
import Mathlib.Algebra.Order.Group.Int

/-!
# src/utils.c: integer, byte, min/max, root-finding and quadrature helpers
-/

namespace Athena.Utils

/-! ## `ath_gcd` -/

/-- The loop `while((c=a%b)) {a=b; b=c;} return b;` of src/utils.c:54-55.
`a % b` is C's truncated remainder; `b = 0` is a division by zero, undefined behaviour.
Simplification: `int` is unbounded, so the overflow of `INT_MIN % -1` is not represented. -/
def gcdLoop (a b : Int) : Res Int :=
  if hb : b = 0 then .ub
  else if hc : a.tmod b = 0 then .ok b
  else gcdLoop b (a.tmod b)
termination_by b.natAbs
decreasing_by
  rw [Int.natAbs_tmod]
  exact Nat.mod_lt _ (Int.natAbs_pos.mpr hb)

/-- `ath_gcd`, src/utils.c:50-56. -/
def athGcd (a b : Int) : Res Int :=
  if b > a then gcdLoop b a else gcdLoop a b

/-! ## `ath_bswap` -/

/-- One iteration of the `len==2` loop, src/utils.c:85-88, on the whole memory at offset `p`:
exchange bytes `p` and `p+1`.  Memory is a function from addresses to bytes. -/
def swapAt {β : Type _} (m : Nat → β) (i j : Nat) : Nat → β :=
  fun x => if x = i then m j else if x = j then m i else m x

/-- Loop body for one word of 2 bytes (src/utils.c:86). -/
def swapWord2 {β : Type _} (m : Nat → β) (p : Nat) : Nat → β := swapAt m p (p+1)

/-- Loop body for one word of 4 bytes (src/utils.c:91-92). -/
def swapWord4 {β : Type _} (m : Nat → β) (p : Nat) : Nat → β :=
  swapAt (swapAt m p (p+3)) (p+1) (p+2)

/-- Loop body for one word of 8 bytes (src/utils.c:97-100). -/
def swapWord8 {β : Type _} (m : Nat → β) (p : Nat) : Nat → β :=
  swapAt (swapAt (swapAt (swapAt m p (p+7)) (p+1) (p+6)) (p+2) (p+5)) (p+3) (p+4)

/-- `while (cnt--) { body at dat; dat += len; }` (src/utils.c:85-102); `cnt ≥ 0`. -/
def swapLoop {β : Type _} (body : (Nat → β) → Nat → (Nat → β)) (len : Nat) :
    Nat → Nat → (Nat → β) → (Nat → β)
  | 0, _, m => m
  | cnt+1, p, m => swapLoop body len cnt (p+len) (body m p)

/-- The general case, src/utils.c:103-109: `for(k=0;k<len/2;k++)` exchange `k` and `len-1-k`;
note that `cnt` is not used. `n` is the number of iterations still to run, starting at `k`. -/
def swapGeneral {β : Type _} (len : Nat) : Nat → Nat → (Nat → β) → (Nat → β)
  | 0, _, m => m
  | n+1, k, m => swapGeneral len n (k+1) (swapAt m k (len-1-k))

/-- `ath_bswap(dat,len,cnt)`, src/utils.c:77-110; `dat` is address 0. -/
def bswap {β : Type _} (m : Nat → β) (len cnt : Nat) : Nat → β :=
  if len = 1 then m
  else if len = 2 then swapLoop swapWord2 2 cnt 0 m
  else if len = 4 then swapLoop swapWord4 4 cnt 0 m
  else if len = 8 then swapLoop swapWord8 8 cnt 0 m
  else swapGeneral len (len/2) 0 m

/-! ## `minmax1`, `minmax2`, `minmax3` -/

/-- `MIN(a,b)` of src/defs.h.in: `((a) < (b) ? (a) : (b))`. -/
def cMin {α : Type _} [LT α] [DecidableLT α] (a b : α) : α := if a < b then a else b
/-- `MAX(a,b)` of src/defs.h.in: `((a) > (b) ? (a) : (b))`. -/
def cMax {α : Type _} [LT α] [DecidableLT α] (a b : α) : α := if b < a then a else b

/-- Running minimum and maximum over a row: body of the loops src/utils.c:148-151, 167-170. -/
def minmaxRow {α : Type _} [LT α] [DecidableLT α] (acc : α × α) (row : List α) : α × α :=
  row.foldl (fun mm x => (cMin mm.1 x, cMax mm.2 x)) acc

/-- `minmax1`, src/utils.c:142-154.  Reading `data[0]` of an empty array is undefined. -/
def minmax1 {α : Type _} [LT α] [DecidableLT α] (data : List α) : Res (α × α) :=
  match data with
  | [] => .ub
  | x :: _ => .ok (minmaxRow (x, x) data)

/-- `minmax2`, src/utils.c:160-174: rows in order; starts from `data[0][0]`. -/
def minmax2 {α : Type _} [LT α] [DecidableLT α] (data : List (List α)) : Res (α × α) :=
  match data with
  | (x :: _) :: _ => .ok (data.foldl minmaxRow (x, x))
  | _ => .ub

/-- `minmax3`, src/utils.c:181-197. -/
def minmax3 {α : Type _} [LT α] [DecidableLT α] (data : List (List (List α))) : Res (α × α) :=
  match data with
  | ((x :: _) :: _) :: _ => .ok (data.foldl (fun acc pl => pl.foldl minmaxRow acc) (x, x))
  | _ => .ub

/-! ## `sign_change` and `bisection` -/

section Field
variable {F : Type _} [Field F] [LinearOrder F]

/-- Inner loop of `sign_change`, src/utils.c:525-532, with `steps` iterations left
(`i` runs from 1 to `n-1`): current point `a`, its value `fk`. -/
def signInner (f : F → F) (delta : F) : Nat → F → F → Option (F × F)
  | 0, _, _ => none
  | s+1, a, fk =>
    let b := a + delta
    let fb := f b
    if fb * fk < 0 then some (a, b) else signInner f delta s b fb

/-- Outer loop of `sign_change`, src/utils.c:520-533, `fuel` values of `k` left, starting at `k`;
`n = 2^k`, `delta = (b0-a0)/(n-1)`. -/
def signOuter (f : F → F) (a0 b0 : F) : Nat → Nat → Option (F × F)
  | 0, _ => none
  | fuel+1, k =>
    let n := 2^k
    match signInner f ((b0 - a0) / ((n - 1 : Nat) : F)) (n-1) a0 (f a0) with
    | some r => some r
    | none => signOuter f a0 b0 fuel (k+1)

/-- `sign_change`, src/utils.c:514-536 (`kmax = 20`).  The parameter `x` is fixed in `f`.
`none` is the return value 0. -/
def signChange (f : F → F) (a0 b0 : F) : Option (F × F) := signOuter f a0 b0 20 1

variable [IsStrictOrderedRing F]

/-- `tol = 1.0E-10` of src/utils.c:546 (as an exact rational). -/
def tol : F := 1 / 10^10

/-- Loop of `bisection`, src/utils.c:563-594; `fuel` is the number of iterations left.
The test `fabs((b-a)/c) < tol` is false for `c = 0` in IEEE arithmetic (infinity or NaN). -/
def bisectLoop (f : F → F) : Nat → F → F → F → F → Res F
  | 0, _, _, _, _ => .fatal
  | n+1, a, b, fa, fb =>
    let c := (a + b) / 2
    if c ≠ 0 ∧ |(b - a) / c| < tol then .ok c
    else
      let fc := f c
      if fa * fc < 0 then bisectLoop f n a c fa fc
      else if fc * fb < 0 then bisectLoop f n c b fc fb
      else if fc = 0 then .ok c
      else .fatal

/-- `bisection`, src/utils.c:543-599 (`maxiter = 400`); `.ok root` is the return value 1. -/
def bisection (f : F → F) (a0 b0 : F) : Res F :=
  let fa := f a0
  let fb := f b0
  if |fa| < tol then .ok a0
  else if |fb| < tol then .ok b0
  else bisectLoop f 400 a0 b0 fa fb

/-! ## `trapzd` and `qsimp` -/

/-- `for (sum=0.0,j=1; j<=it; j++,x+=dx) sum += func(x);` src/utils.c:872. -/
def trapSum (f : F → F) (dx : F) : Nat → F → F → F
  | 0, _, sum => sum
  | it+1, x, sum => trapSum f dx it (x + dx) (sum + f x)

/-- `trapzd`, src/utils.c:858-875.  `it = 2^(n-2)` (src/utils.c:868).  Called with `n ≥ 1`. -/
def trapzd (f : F → F) (a b : F) (n : Nat) (s : F) : F :=
  if n = 1 then (b - a) / 2 * (f a + f b)
  else
    let it : Nat := 2^(n-2)
    let dx := (b - a) / (it : F)
    let sum := trapSum f dx it (a + dx/2) 0
    (s + (b - a) * sum / (it : F)) / 2

/-- `EPS 1.0e-8`, src/utils.c:888. -/
def eps : F := 1 / 10^8

/-- Loop of `qsimp`, src/utils.c:897-904; `fuel` iterations left, current index `j`. -/
def qsimpLoop (f : F → F) (a b : F) : Nat → Nat → F → F → Res F
  | 0, _, _, _ => .fatal
  | fuel+1, j, ost, os =>
    let st := trapzd f a b j ost
    let s := (4 * st - ost) / 3
    if 5 < j ∧ (|s - os| < eps * |os| ∨ (s = 0 ∧ os = 0)) then .ok s
    else qsimpLoop f a b fuel (j+1) st s

/-- `qsimp`, src/utils.c:891-908 (`JMAX = 20`; initial values `-1.0e30`). -/
def qsimp (f : F → F) (a b : F) : Res F := qsimpLoop f a b 20 1 (-10^30) (-10^30)

end Field
end Athena.Utils
