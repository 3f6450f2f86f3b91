import Verif.Base
import Mathlib.Algebra.BigOperators.Group.Finset.Basic
import Mathlib.Algebra.BigOperators.Ring.Finset
import Mathlib.Algebra.BigOperators.Intervals
import Mathlib.Algebra.Order.Field.Basic
import Mathlib.Tactic.Ring
import Mathlib.Tactic.Linarith
import Mathlib.Tactic.LinearCombination
import Mathlib.Tactic.FieldSimp

/-!
# src/utils.c: ludcmp, lubksb, InverseMatrix, MatrixMult

The arithmetic is that of an ordered field (exact; the code uses doubles).  Matrices and vectors are functions of the
indices; assignments are `upd`, loops are `forN`.  `imax` is a variable declared without a value: reading it before it
is set is undefined behaviour (`Res.ub`).
-/

namespace Athena.Lu
open Athena

/-- `for (k=0; k<n; k++) s = f(k, s)` -/
def forN {σ : Type} (n : ℕ) (f : ℕ → σ → σ) (s : σ) : σ := Nat.rec s (fun k t => f k t) n

/-- `v[i] = x` -/
def upd {α : Type} (v : ℕ → α) (i : ℕ) (x : α) : ℕ → α := fun k => if k = i then x else v k
/-- `a[i][j] = x` -/
def upd2 {α : Type} (a : ℕ → ℕ → α) (i j : ℕ) (x : α) : ℕ → ℕ → α := fun p q => if p = i ∧ q = j then x else a p q

section
variable {K : Type} [Field K] [LinearOrder K] [IsStrictOrderedRing K]

/-- The largest absolute value in row `i`, utils.c:1268-1270. -/
def rowBig (a : ℕ → ℕ → K) (n i : ℕ) : K := forN n (fun j big => if |a i j| > big then |a i j| else big) 0

/-- The loop over the rows computing `rowscale`, :1266-1273; `ath_error` for a zero row. -/
def scales (a : ℕ → ℕ → K) (n : ℕ) : Res (ℕ → K) :=
  forN n (fun i r => r.bind fun sc => if rowBig a n i = 0 then .fatal else .ok (upd sc i (1 / rowBig a n i)))
    (.ok fun _ => 0)

/-- `sum=a[i][j]; for (k=0;k<m;k++) sum -= a[i][k]*a[k][j];`, :1278-1279, :1285-1287. -/
def elim (a : ℕ → ℕ → K) (m i j : ℕ) : K := forN m (fun k s => s - a i k * a k j) (a i j)

/-- "Calculate the upper block", :1277-1281. -/
def upper (a : ℕ → ℕ → K) (j : ℕ) : ℕ → ℕ → K := forN j (fun i a => upd2 a i j (elim a i i j)) a

/-- State of the pivot search. -/
structure Piv (K : Type) where
  a : ℕ → ℕ → K
  big : K
  imax : Option ℕ

/-- "Calculate the lower block (first step)" for row `i` with the search for the largest pivot, :1284-1294. -/
def lowerRow (sc : ℕ → K) (j i : ℕ) (p : Piv K) : Piv K :=
  let sum := elim p.a j i j
  let a := upd2 p.a i j sum
  let dum := sc i * |sum|
  if dum ≥ p.big then ⟨a, dum, some i⟩ else ⟨a, p.big, p.imax⟩

/-- The loop `for (i=j;i<n;i++)`, :1283-1294. -/
def lower (sc : ℕ → K) (a : ℕ → ℕ → K) (n j : ℕ) (imax : Option ℕ) : Piv K :=
  forN (n - j) (fun t => lowerRow sc j (j + t)) ⟨a, 0, imax⟩

/-- Exchange of rows `p` and `q`, :1297-1301. -/
def swapRows (a : ℕ → ℕ → K) (n p q : ℕ) : ℕ → ℕ → K :=
  forN n (fun k a => upd2 (upd2 a p k (a q k)) q k (a p k)) a

/-- Division by the pivot, :1308-1310. -/
def scaleCol (a : ℕ → ℕ → K) (n j : ℕ) : ℕ → ℕ → K :=
  forN (n - (j + 1)) (fun t a' => upd2 a' (j + 1 + t) j (a' (j + 1 + t) j * (1 / a j j))) a

/-- Variables of `ludcmp`: the matrix, `indx`, `*d`, `rowscale` and `imax`. -/
structure LuSt (K : Type) where
  a : ℕ → ℕ → K
  indx : ℕ → ℕ
  d : K
  sc : ℕ → K
  imax : Option ℕ

/-- One column of Crout's method, :1275-1311. -/
def column (tiny : K) (n j : ℕ) (s : LuSt K) : Res (LuSt K) :=
  let p := lower s.sc (upper s.a j) n j s.imax
  match p.imax with
  | none => .ub
  | some m =>
    let a := if j ≠ m then swapRows p.a n m j else p.a
    let d := if j ≠ m then -s.d else s.d
    let sc := if j ≠ m then upd s.sc m (s.sc j) else s.sc
    let a := if a j j = 0 then upd2 a j j tiny else a
    .ok ⟨scaleCol a n j, upd s.indx j m, d, sc, some m⟩

/-- `ludcmp`, :1257-1313: the matrix, `indx` and `d`. -/
def ludcmp (tiny : K) (a : ℕ → ℕ → K) (n : ℕ) : Res ((ℕ → ℕ → K) × (ℕ → ℕ) × K) :=
  (scales a n).bind fun sc =>
  (forN n (fun j r => r.bind (column tiny n j)) (.ok ⟨a, fun _ => 0, 1, sc, none⟩ : Res (LuSt K))).bind fun s =>
  .ok (s.a, s.indx, s.d)

/-- Forward substitution in `lubksb`, :1328-1336: `ii` is -1 until a non-zero sum has been seen. -/
def fwdRow (a : ℕ → ℕ → K) (indx : ℕ → ℕ) (i : ℕ) (s : Option ℕ × (ℕ → K)) : Option ℕ × (ℕ → K) :=
  let ip := indx i
  let sum := s.2 ip
  let b := upd s.2 ip (s.2 i)
  match s.1 with
  | some ii => (some ii, upd b i (forN (i - ii) (fun t z => z - a i (ii + t) * b (ii + t)) sum))
  | none => (if sum ≠ 0 then some i else none, upd b i sum)

/-- Back substitution, :1338-1342. -/
def backRow (a : ℕ → ℕ → K) (n i : ℕ) (b : ℕ → K) : ℕ → K :=
  upd b i (forN (n - (i + 1)) (fun t z => z - a i (i + 1 + t) * b (i + 1 + t)) (b i) / a i i)

/-- `lubksb`, :1323-1343. -/
def lubksb (a : ℕ → ℕ → K) (n : ℕ) (indx : ℕ → ℕ) (b : ℕ → K) : ℕ → K :=
  forN n (fun t => backRow a n (n - 1 - t)) (forN n (fwdRow a indx) (none, b)).2

/-- `InverseMatrix`, :1352-1370. -/
def inverseMatrix (tiny : K) (a : ℕ → ℕ → K) (n : ℕ) : Res (ℕ → ℕ → K) :=
  (ludcmp tiny a n).bind fun r =>
  .ok (forN n (fun j b =>
    let col := lubksb r.1 n r.2.1 (upd (forN n (fun i c => upd c i 0) fun _ => 0) j 1)
    forN n (fun i b => upd2 b i j (col i)) b) fun _ _ => 0)

/-- `MatrixMult`, :1375-1384: `a` is m×n, `b` is n×l; `c` holds arbitrary values before. -/
def matrixMult (a b : ℕ → ℕ → K) (m n l : ℕ) (c : ℕ → ℕ → K) : ℕ → ℕ → K :=
  forN m (fun i c => forN l (fun j c =>
    forN n (fun k c => upd2 c i j (c i j + a i k * b k j)) (upd2 c i j 0)) c) c

end
end Athena.Lu
