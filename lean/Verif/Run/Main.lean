import Mathlib.Algebra.Order.Field.Basic
import Mathlib.Order.WithBot
import Mathlib.Algebra.Order.Ring.Rat
import Mathlib.Algebra.Field.Rat

/-!
# src/main.c (main loop), src/new_dt.c (choice of the time step), src/ath_signal.c

All ranks are modelled: the control variables of `main` exist once per rank, and the reductions
(`MPI_Allreduce`) are over the list of ranks.  The solver is abstract: `X` is the state of the whole
computation (all Grids on all ranks) and `adv dt` is everything a cycle does to it (main.c steps 9b-9f
and 9h).  `maxDti x r` is `max_dti` as computed by rank `r` (new_dt.c:73-176, modelled in `Run/Cfl.lean`);
`CourNo/0.0` is `+infinity` in IEEE arithmetic, here `⊤`.

Signals: in each cycle and on each rank the handler may run before `ath_sig_act` reads `sig_caught`
(`early`) and between this read and the reset (`late`).  Only SIGTERM (15) has a handler.
-/

namespace Athena.Run

variable {R : Type} [Field R] [LinearOrder R] {X : Type}

/-- `SIGTERM`. -/
def SIGTERM : Int := 15

/-- The value of `iquit` for the wall-clock limit, src/main.c:632. -/
def WTQUIT : Int := 103

/-- Parameters of a run. -/
structure Job (R X : Type) where
  /-- `time/tlim` -/
  tlim : R
  /-- `time/nlim` (-1: none), src/main.c:350 -/
  nlim : Int
  /-- `CourNo` -/
  cour : R
  /-- number of ranks after the first one: ranks are `0..extra` -/
  extra : Nat
  adv : R → X → X
  maxDti : X → Nat → R
  /-- explicit diffusion: `max_dti_diff` of each rank (`none`: no diffusion compiled in) -/
  maxDtiDiff : Option (X → Nat → R)
  /-- SIGTERM arrives in cycle `k` on rank `r` before the check reads the flag -/
  early : Nat → Nat → Bool
  /-- SIGTERM arrives in cycle `k` on rank `r` between the read and the reset -/
  late : Nat → Nat → Bool
  /-- `use_wtlim && MPI_Wtime() > wtend` in cycle `k` on rank `r` -/
  wall : Nat → Nat → Bool

def Job.ranks (J : Job R X) : List Nat := List.range (J.extra + 1)

/-- The control variables of one rank: `Mesh.time`, `Mesh.nstep`, `Mesh.dt`, `iquit`, `sig_caught`. -/
structure Ctl (R : Type) where
  time : R
  nstep : Nat
  dt : WithTop R
  iquit : Int
  sig : Int
deriving DecidableEq

/-! ## new_dt -/

/-- `CourNo/max_dti` (IEEE: infinite for a zero divisor). -/
def quot (cour dti : R) : WithTop R := if dti = 0 then ⊤ else ((cour / dti : R) : WithTop R)

/-- `MPI_Allreduce(..., MPI_MIN, ...)`. -/
def allMin (l : List (WithTop R)) : WithTop R := l.foldl min ⊤

/-- src/new_dt.c:178-197 on one rank; `g` is the minimum over the ranks. -/
def limitDt (tlim : R) (g : WithTop R) (c : Ctl R) : WithTop R :=
  let dt := if c.nstep ≠ 0 then min g (c.dt.map (2 * ·)) else g
  if c.time < tlim ∧ ((tlim - c.time : R) : WithTop R) < dt then ((tlim - c.time : R) : WithTop R) else dt

/-- `new_dt` without STS, src/new_dt.c:178-245, on all ranks. -/
def newDt (J : Job R X) (x : X) (cs : List (Ctl R)) : List (Ctl R) :=
  let g := allMin (J.ranks.map (fun r => quot J.cour (J.maxDti x r)))
  match J.maxDtiDiff with
  | none => cs.map (fun c => { c with dt := limitDt J.tlim g c })
  | some d =>
    let gd := allMin (J.ranks.map (fun r => quot J.cour (d x r)))
    cs.map (fun c => { c with dt := min (limitDt J.tlim g c) gd })

/-! ## ath_sig_act -/

/-- Integer maximum over the ranks. -/
def allMax (l : List Int) (d : Int) : Int := l.foldl max d

/-- src/main.c:630-634 and src/ath_signal.c:50-70 on all ranks: the reduced value of `iquit`, which is
the value returned on every rank, and the states after it.  (`sig_caught` and `iquit` are never negative,
so the maximum may start at 0.) -/
def sigAct (J : Job R X) (k : Nat) (cs : List (Ctl R)) : Int × List (Ctl R) :=
  let sigs := (cs.zipIdx).map fun (c, r) =>
    let iquit := if J.wall k r then WTQUIT else c.iquit
    let sig := if J.early k r then SIGTERM else c.sig
    if sig > iquit then sig else iquit
  let q := allMax sigs 0
  (q, (cs.zipIdx).map fun (c, r) =>
    -- the handler may run between the read (line 54) and the reset (line 67)
    let c := if J.late k r then { c with sig := SIGTERM } else c
    { c with iquit := q, sig := 0 })

/-! ## The main loop -/

/-- Loop condition, src/main.c:493. -/
def cond (J : Job R X) (c : Ctl R) : Bool := c.time < J.tlim ∧ (J.nlim < 0 ∨ (c.nstep : Int) < J.nlim)

inductive Stat where
  /-- the fuel of the model ran out, the program is still running -/
  | running
  /-- the loop condition became false -/
  | limit
  /-- `break` after `ath_sig_act` -/
  | quit
  /-- some ranks leave the loop while others call a collective operation -/
  | deadlock
  /-- the time step is infinite -/
  | infinite
deriving DecidableEq, Repr

/-- src/main.c:590-591 on one rank with a finite time step. -/
def advance (dt : R) (c : Ctl R) : Ctl R := { c with nstep := c.nstep + 1, time := c.time + dt }

/-- A finite time step, or none. -/
def finite? (d : WithTop R) : Option R := d

/-- src/main.c:590-591 on every rank. -/
def advanceAll (cs : List (Ctl R)) : List (Ctl R) :=
  cs.map fun c =>
    match finite? c.dt with
    | some d => advance d c
    | none => c

/-- The main loop, src/main.c:493-646, for at most `fuel` cycles; `k` counts the cycles.  The result has
the list of the time steps taken. -/
def loop (J : Job R X) : Nat → Nat → List (Ctl R) → X → Stat × List (Ctl R) × X × List R
  | fuel, k, cs, x =>
    if cs.all (fun c => !cond J c) then (.limit, cs, x, [])
    else if cs.any (fun c => !cond J c) then (.deadlock, cs, x, [])
    else
      match fuel with
      | 0 => (.running, cs, x, [])
      | fuel+1 =>
        match cs.head?.bind (fun c => finite? c.dt) with
        | some dt =>
          let x' := J.adv dt x
          let sa := sigAct J k (newDt J x' (advanceAll cs))
          if sa.1 ≠ 0 then (.quit, sa.2, x', [dt])
          else
            let r := loop J fuel (k+1) sa.2 x'
            (r.1, r.2.1, r.2.2.1, dt :: r.2.2.2)
        | none => (.infinite, cs, x, [])

/-- State of every rank when the loop is entered, src/main.c:344-376, 431: a new run (`nstep = 0`, first
`new_dt`) … -/
def startNew (J : Job R X) (t0 : R) (x : X) : List (Ctl R) :=
  newDt J x (J.ranks.map fun _ => ⟨t0, 0, ⊤, 0, 0⟩)

/-- … or a restart: cycle, time and time step from the file, no `new_dt`. -/
def startRestart (J : Job R X) (time : R) (nstep : Nat) (dt : R) : List (Ctl R) :=
  J.ranks.map fun _ => ⟨time, nstep, (dt : WithTop R), 0, 0⟩

/-- The reason printed at the end, src/main.c:653-660. -/
inductive Msg where
  | cycleLimit | wallTime | timeLimit
deriving DecidableEq, Repr

def finalMsg (J : Job R X) (c : Ctl R) : Msg :=
  if (c.nstep : Int) = J.nlim then .cycleLimit
  else if c.iquit = WTQUIT then .wallTime
  else .timeLimit

end Athena.Run
