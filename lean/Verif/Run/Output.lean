import Verif.Par.Model
import Mathlib.Algebra.Order.Field.Basic

/-!
# src/output.c: the list of outputs and `data_output`

Real numbers are an ordered field `R`.  The text format of real numbers (`"%.15e"` and `atof`) is a
parameter (`DFmt`): the model does not say how many digits survive.  Simplifications: the options of
single-variable outputs that do not influence numbering or scheduling (slices, palette, dmin/dmax,
dat_fmt, level, domain, id) are not read; `malloc` does not fail; output functions do not change the
parameter database.  Particles are off.
-/

namespace Athena.Run
open Athena.Par

variable {R : Type} [Field R] [LinearOrder R]

/-- `sprintf(..,"%.15e",x)` and `atof`. -/
structure DFmt (R : Type) where
  fmt : R → Str
  parse : Str → R

/-- `par_getd_def`, src/par.c:320-329. -/
def parGetdDef (F : DFmt R) (db : DB) (block name : Str) (defv : R) : Res (R × DB) :=
  if parExist db block name then do
    let v ← parGets db block name
    return (F.parse v, db)
  else .ok (defv, parSets db block name (F.fmt defv) (some defaultValue))

/-- `par_getd`, src/par.c:277-282. -/
def parGetd (F : DFmt R) (db : DB) (block name : Str) : Res R := do
  let s ← parGets db block name
  return F.parse s

/-- The members of `OutputS` (src/athena.h) that control numbering and scheduling. -/
structure Out (R : Type) where
  n : Int
  t : R
  dt : R
  num : Int
deriving DecidableEq, Repr

/-- `OutArray[0..out_count-1]` and `rst_out` (`none`: `rst_flag = 0`), src/output.c:105-108. -/
structure Outs (R : Type) where
  arr : List (Out R)
  rst : Option (Out R)
deriving DecidableEq, Repr

/-- `sprintf(block,"output%d",n)`, src/output.c:177, 516, 528. -/
def outBlock (n : Int) : Str := "output".toList ++ fmtInt n

def cNum : Str := "Next Output Number".toList
def cTime : Str := "Next Output Time".toList
def sNum : Str := "num".toList
def sTime : Str := "time".toList

/-! ## init_output -/

/-- What happens to one output block. -/
inductive Cls where
  | skip | add | rst
deriving DecidableEq, Repr

/-- `MAXOUT_DEFAULT`, src/output.c:103. -/
def MAXOUT : Nat := 10

/-- Dumps of the conserved or primitive variables and single-variable outputs, src/output.c:242-453.
`usr`: a user output function of that name exists; `expr`: the expression is known.  Using `fmt` when
the block has no `out_fmt` is undefined behaviour (src/output.c:409, an uninitialised pointer or the
one of an earlier block). -/
def classify (usr expr : Str → Bool) (out : Str) (fmt name : Option Str) : Res Cls :=
  if out = "cons".toList then
    match name with
    | some nm => if usr nm then .ok .add else .fatal
    | none =>
      match fmt with
      | none => .ub
      | some f =>
        if f = "bin".toList ∨ f = "hst".toList ∨ f = "tab".toList then .ok .add
        else if f = "rst".toList then .ok .rst
        else if f = "vtk".toList then .ok .add
        else .fatal
  else if out = "prim".toList then
    match name with
    | some nm => if usr nm then .ok .add else .fatal
    | none =>
      match fmt with
      | none => .ub
      | some f =>
        if f = "bin".toList ∨ f = "tab".toList ∨ f = "vtk".toList then .ok .add else .fatal
  else if expr out = false then .ok .skip
  else
    match fmt with
    | none => .ub
    | some f =>
      match name with
      | some nm => if usr nm then .ok .add else .fatal
      | none =>
        if f = "pdf".toList ∨ f = "pgm".toList ∨ f = "ppm".toList ∨ f = "vtk".toList ∨ f = "tab".toList
        then .ok .add else .fatal

/-- A parameter that may be absent. -/
def optPar (db : DB) (block name : Str) : Option Str :=
  match parGets db block name with
  | .ok s => some s
  | _ => none

/-- One pass of the loop of `init_output`, src/output.c:175-467. -/
def initBlock (F : DFmt R) (usr expr : Str → Bool) (time : R) (outn : Nat) (st : DB × Outs R) :
    Res (DB × Outs R) :=
  let db := st.1
  let block := outBlock outn
  if parExist db block "out_fmt".toList = false ∧ parExist db block "name".toList = false then .ok st
  else do
    let (t, db) ← parGetdDef F db block sTime time
    let (num, db) ← parGetiDef db block sNum 0
    let dt ← parGetd F db block "dt".toList
    let (out, db) ← parGetsDef db block "out".toList "cons".toList
    let o : Out R := ⟨outn, t, dt, num⟩
    match ← classify usr expr out (optPar db block "out_fmt".toList) (optPar db block "name".toList) with
    | .skip => return (db, st.2)
    | .add => return (db, { st.2 with arr := st.2.arr ++ [o] })
    | .rst => return (db, { st.2 with rst := some o })

/-- The loop of `init_output` over `outn = k, …, k+m-1`. -/
def initLoop (F : DFmt R) (usr expr : Str → Bool) (time : R) : Nat → Nat → DB × Outs R → Res (DB × Outs R)
  | 0, _, st => .ok st
  | m+1, k, st => do
    let st ← initBlock F usr expr time k st
    initLoop F usr expr time m (k+1) st

/-- `init_output`, src/output.c:157-469 (`time` is `pM->time`). -/
def initOutput (F : DFmt R) (usr expr : Str → Bool) (time : R) (db : DB) : Res (DB × Outs R) := do
  let (maxout, db) ← parGetiDef db "job".toList "maxout".toList MAXOUT
  initLoop F usr expr time maxout.toNat 1 (db, ⟨[], none⟩)

/-! ## data_output -/

/-- What a call of `data_output` writes.  A restart file contains the parameter database at the moment
of writing (src/restart.c:dump_restart calls `par_dump(2,fp)`). -/
inductive Event (R : Type) where
  | restart (num : Int) (time : R) (db : DB)
  | dump (n : Int) (num : Int) (time : R)
deriving DecidableEq, Repr

/-- src/output.c:495-499: the output after the check of its scheduled time, and its `dump_flag`. -/
def check (time : R) (flag : Bool) (o : Out R) : Out R × Bool :=
  if time ≥ o.t then ({ o with t := o.t + o.dt }, true) else (o, flag)

/-- src/output.c:513-526: record the next number and time of one output. -/
def record (F : DFmt R) (db : DB) (of : Out R × Bool) : DB :=
  if of.1.n > 0 then
    let b := outBlock of.1.n
    let db := if of.2 then parSeti db b sNum (of.1.num + 1) (some cNum)
              else parSeti db b sNum of.1.num (some cNum)
    parSets db b sTime (F.fmt of.1.t) (some cTime)
  else db

/-- src/output.c:541-556: write one output if its flag is set. -/
def write (time : R) (of : Out R × Bool) : Out R × List (Event R) :=
  if of.2 then ({ of.1 with num := of.1.num + 1 }, [.dump of.1.n of.1.num time]) else (of.1, [])

/-- `data_output`, src/output.c:480-559.  `dump_flag` has `MAXOUT_DEFAULT+1` elements (line 488); more
outputs than that overflow it. -/
def dataOutput (F : DFmt R) (time : R) (flag : Bool) (db : DB) (s : Outs R) :
    Res (DB × Outs R × List (Event R)) :=
  let used := s.arr.length + (match s.rst with | some _ => 1 | none => 0)
  if used > MAXOUT + 1 then .ub
  else
    let fl := s.arr.map (check time flag)
    let r : DB × Option (Out R) × List (Event R) :=
      match s.rst with
      | none => (db, none, [])
      | some ro =>
        let c := check time flag ro
        if c.2 then
          let db := fl.foldl (record F) db
          let b := outBlock c.1.n
          let db := parSeti db b sNum (c.1.num + 1) (some cNum)
          let db := parSets db b sTime (F.fmt c.1.t) (some cTime)
          (db, some { c.1 with num := c.1.num + 1 }, [.restart c.1.num time db])
        else (db, some c.1, [])
    let w := fl.map (write time)
    .ok (r.1, ⟨w.map (·.1), r.2.1⟩, r.2.2 ++ w.flatMap (·.2))

end Athena.Run
