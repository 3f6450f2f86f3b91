import Verif.Par.Model
import Mathlib.Logic.Function.Basic
import Mathlib.Tactic.SplitIfs

/-!
# Restart files (src/restart.c)

A file is a string of bytes; as in `Verif.Par.Model` a byte is a `Char`.  A binary value is written
by `fwrite` as `size` bytes and read back by `fread`; what is known about the bytes of a type is
collected in `Codec`.  Nothing else is known about the bytes: binary data may contain newlines,
`<`, NUL or whole header lines.

Not modelled: `fopen` failures, failing `malloc`, short writes, `problem_write_restart` and
`problem_read_restart` (arbitrary user data at the end of the file), curvilinear coordinates.
-/

namespace Athena.Run.Rst
open Athena.Par

/-- Memory representation of a type: `fwrite(&x,sizeof(x),1,fp)` writes `enc x`, `fread` of the same
bytes gives `x` back (for a value `x` of the C type, `fits`). -/
structure Codec (α : Type) where
  size : Nat
  enc : α → Str
  dec : Str → α
  fits : α → Prop
  pos : 0 < size
  len : ∀ a, (enc a).length = size
  rt : ∀ a, fits a → dec (enc a) = a

/-- The machine: `Real`, `int`, `long`, `short`, the average `0.5*(a+b)` of two `Real`s and the
256 KB of src/restart.c:503. -/
structure Plat (V : Type) where
  R : Codec V
  I : Codec Int
  L : Codec Int
  S : Codec Int
  avg : V → V → V
  bufBytes : Nat

/-- `configure` options which change the file. -/
structure Cfg where
  sts : Bool
  barotropic : Bool
  mhd : Bool
  nscalars : Nat
  particles : Bool
  feedback : Bool
  mpi : Bool

/-- Zone index `[k][j][i]`. -/
abbrev Idx := Nat × Nat × Nat

/-- Members of `ConsS` (`s n` is the n-th passive scalar). -/
inductive Var where
  | d | M1 | M2 | M3 | E | B1c | B2c | B3c
  | s (n : Nat)
deriving DecidableEq

/-- `GrainS`: the members in the restart file and `pos`. -/
@[ext] structure Part (V : Type) where
  x1 : V
  x2 : V
  x3 : V
  v1 : V
  v2 : V
  v3 : V
  property : Int
  my_id : Int
  init_id : Int
  pos : Int

/-- `Grain_Property`, `tstop0[i]` and `grrhoa[i]` of one particle type. -/
structure PType (V : Type) where
  m : V
  rad : V
  rho : V
  tstop0 : V
  grrhoa : V
  integrator : Int
  num : Int

/-- The global particle data; `alloc` is the number of allocated types. -/
structure Types (V : Type) where
  n : Nat
  alloc : Nat
  prop : Nat → PType V
  alam : V

/-- `GridS`.  `n1z, n2z, n3z` are the allocated sizes (src/init_grid.c:153-170). -/
structure Grid (V : Type) where
  is : Nat
  ie : Nat
  js : Nat
  je : Nat
  ks : Nat
  ke : Nat
  n1z : Nat
  n2z : Nat
  n3z : Nat
  time : V
  dt : V
  U : Var → Idx → V
  B1i : Idx → V
  B2i : Idx → V
  B3i : Idx → V
  nparticle : Nat
  arrsize : Nat
  part : Nat → Part V

/-- `MeshS`, restricted to what the restart file holds, and the STS and particle globals. `grids` are
the Grids on this processor in the order of the loops over levels and Domains, src/restart.c:114-117
and 576-579. -/
structure Mesh (V : Type) where
  nstep : Int
  time : V
  dt : V
  diffDt : V
  nSTS : Int
  nuSTS : V
  grids : List (Grid V)
  types : Types V

/-! ## Loops over zones -/

/-- `for (k=a; k<=b; k++)`. -/
def loop (a b : Nat) : List Nat := List.range' a (b + 1 - a)

/-- The triple loop `k, j, i`, e.g. src/restart.c:136-142. -/
def box (ks ke js je is ie : Nat) : List Idx :=
  (loop ks ke).flatMap fun k => (loop js je).flatMap fun j => (loop is ie).map fun i => (k, j, i)

/-- The access `[k][j][i]` is inside the allocated array. -/
def inB {V : Type} (g : Grid V) (x : Idx) : Bool := x.1 < g.n3z && x.2.1 < g.n2z && x.2.2 < g.n1z

/-- The counters `ib, jb, kb`: 0 at the start of both functions (src/restart.c:63, 489), set to 1 by a
Grid with more than one zone and never reset (src/restart.c:207-209, 682-684). -/
structure Ext where
  ib : Nat
  jb : Nat
  kb : Nat

def Ext.upd {V : Type} (e : Ext) (g : Grid V) : Ext :=
  ⟨if g.ie > g.is then 1 else e.ib, if g.je > g.js then 1 else e.jb, if g.ke > g.ks then 1 else e.kb⟩

def zones {V : Type} (g : Grid V) : List Idx := box g.ks g.ke g.js g.je g.is g.ie
def faces1 {V : Type} (g : Grid V) (e : Ext) : List Idx := box g.ks g.ke g.js g.je g.is (g.ie + e.ib)
def faces2 {V : Type} (g : Grid V) (e : Ext) : List Idx := box g.ks g.ke g.js (g.je + e.jb) g.is g.ie
def faces3 {V : Type} (g : Grid V) (e : Ext) : List Idx := box g.ks (g.ke + e.kb) g.js g.je g.is g.ie

/-! ## Writing -/

/-- `buf[nbuf++] = v`; the state is (buffer contents, values written to the file so far). -/
def push {α : Type} (cap : Nat) (st : List α × List α) (v : α) : Res (List α × List α) :=
  if st.1.length < cap then .ok (st.1 ++ [v], st.2) else .ub

def pushAll {α : Type} (cap : Nat) : List α → List α × List α → Res (List α × List α)
  | [], st => .ok st
  | v :: vs, st => do pushAll cap vs (← push cap st v)

/-- The body of the loops, e.g. src/restart.c:593-597 (one value per turn, `grp = 1`) and 790-803
(`nprop` values per turn): store the values, and write out the buffer if there is no room for
another turn. -/
def bufLoop {α : Type} (cap grp : Nat) : List (List α) → List α × List α → Res (List α × List α)
  | [], st => .ok st
  | g :: gs, st => do
    let st ← pushAll cap g st
    bufLoop cap grp gs (if st.1.length + grp > cap then ([], st.2 ++ st.1) else st)

/-- A whole section: the loop and the final `if (nbuf > 0) fwrite`, e.g. src/restart.c:590-604.
Every section starts with an empty buffer because every section ends with `nbuf = 0`. -/
def bufWrite {α : Type} (cap grp : Nat) (gs : List (List α)) : Res (List α) := do
  let st ← bufLoop cap grp gs ([], [])
  if st.1.length > 0 then return st.2 ++ st.1 else return st.2

/-- The bytes of a sequence of values. -/
def encAll {α : Type} (c : Codec α) (vs : List α) : Str := vs.flatMap c.enc

/-- Buffered writing of `vs`, one value per turn, into a buffer of 256 KB. -/
def wVals {V α : Type} (p : Plat V) (c : Codec α) (vs : List α) : Res Str := do
  let vs ← bufWrite (p.bufBytes / c.size) 1 (vs.map ([·]))
  return encAll c vs

/-- `fprintf(fp,"\nDENSITY\n")` etc. -/
def header (h : Str) : Str := '\n' :: (h ++ ['\n'])

/-- Section of one variable, e.g. src/restart.c:589-604. -/
def wSec {V : Type} (p : Plat V) (g : Grid V) (h : Str) (idx : List Idx) (a : Idx → V) : Res Str :=
  if idx.all (inB g) then do
    let b ← wVals p p.R (idx.map a)
    return header h ++ b
  else .ub

def scalarHdr (n : Nat) : Str := "SCALAR ".toList ++ fmtInt n

/-- Passive scalars, src/restart.c:751-769. -/
def wScalars {V : Type} (p : Plat V) (g : Grid V) : List Nat → Res Str
  | [] => .ok []
  | n :: ns => do
    let a ← wSec p g (scalarHdr n) (zones g) (g.U (.s n))
    let b ← wScalars p g ns
    return a ++ b

/-- The particles written: `for (p=0;p<pG->nparticle;p++) if (pG->particle[p].pos == 1)`,
src/restart.c:776-778, 830-831. -/
def live {V : Type} (g : Grid V) : List (Part V) := ((List.range g.nparticle).map g.part).filter (·.pos = 1)

/-- Section of one member of all particles, e.g. src/restart.c:829-841. -/
def wPart {V α : Type} (p : Plat V) (g : Grid V) (c : Codec α) (h : Str) (get : Part V → α) : Res Str :=
  if g.nparticle ≤ g.arrsize then do
    let b ← wVals p c ((live g).map get)
    return header h ++ b
  else .ub

/-- The values of one turn of the loop over particle types, src/restart.c:791-797. -/
def typeVals {V : Type} (cfg : Cfg) (t : PType V) : List V :=
  (if cfg.feedback then [t.m] else []) ++ [t.rad, t.rho, t.tstop0, t.grrhoa]

/-- `nprop`, src/restart.c:783-787. -/
def nprop (cfg : Cfg) : Nat := if cfg.feedback then 5 else 4

/-- Particle types, src/restart.c:773-823. -/
def wTypes {V : Type} (cfg : Cfg) (p : Plat V) (g : Grid V) (T : Types V) : Res Str :=
  if g.nparticle ≤ g.arrsize ∧ T.n ≤ T.alloc then do
    let ts := (List.range T.n).map T.prop
    let vs ← bufWrite (p.bufBytes / p.R.size) (nprop cfg) (ts.map (typeVals cfg))
    let ss ← wVals p p.S (ts.map (·.integrator))
    return header "PARTICLE LIST".toList ++ p.L.enc (live g).length ++ p.I.enc T.n ++ encAll p.R vs ++
      p.R.enc T.alam ++ ss
  else .ub

/-- Particles, src/restart.c:772-965. -/
def wParticles {V : Type} (cfg : Cfg) (p : Plat V) (g : Grid V) (T : Types V) : Res Str := do
  let a ← wTypes cfg p g T
  let x1 ← wPart p g p.R "PARTICLE X1".toList (·.x1)
  let x2 ← wPart p g p.R "PARTICLE X2".toList (·.x2)
  let x3 ← wPart p g p.R "PARTICLE X3".toList (·.x3)
  let v1 ← wPart p g p.R "PARTICLE V1".toList (·.v1)
  let v2 ← wPart p g p.R "PARTICLE V2".toList (·.v2)
  let v3 ← wPart p g p.R "PARTICLE V3".toList (·.v3)
  let pr ← wPart p g p.I "PARTICLE PROPERTY".toList (·.property)
  let my ← wPart p g p.L "PARTICLE MY_ID".toList (·.my_id)
  let ii ← bif cfg.mpi then wPart p g p.I "PARTICLE INIT_ID".toList (·.init_id) else .ok []
  return a ++ (x1 ++ (x2 ++ (x3 ++ (v1 ++ (v2 ++ (v3 ++ (pr ++ (my ++ ii))))))))

/-- Magnetic field, src/restart.c:679-747. -/
def wField {V : Type} (p : Plat V) (e : Ext) (g : Grid V) : Res Str := do
  let b1 ← wSec p g "1-FIELD".toList (faces1 g e) g.B1i
  let b2 ← wSec p g "2-FIELD".toList (faces2 g e) g.B2i
  let b3 ← wSec p g "3-FIELD".toList (faces3 g e) g.B3i
  return b1 ++ (b2 ++ b3)

/-- One Grid, src/restart.c:580-965. -/
def wGrid {V : Type} (cfg : Cfg) (p : Plat V) (T : Types V) (e : Ext) (g : Grid V) : Res Str := do
  let d ← wSec p g "DENSITY".toList (zones g) (g.U .d)
  let m1 ← wSec p g "1-MOMENTUM".toList (zones g) (g.U .M1)
  let m2 ← wSec p g "2-MOMENTUM".toList (zones g) (g.U .M2)
  let m3 ← wSec p g "3-MOMENTUM".toList (zones g) (g.U .M3)
  let en ← bif cfg.barotropic then .ok [] else wSec p g "ENERGY".toList (zones g) (g.U .E)
  let b ← bif cfg.mhd then wField p (e.upd g) g else .ok []
  let sc ← wScalars p g (List.range cfg.nscalars)
  let pa ← bif cfg.particles then wParticles cfg p g T else .ok []
  return d ++ (m1 ++ (m2 ++ (m3 ++ (en ++ (b ++ (sc ++ pa))))))

/-- The loop over Grids, src/restart.c:576-968. -/
def wGrids {V : Type} (cfg : Cfg) (p : Plat V) (T : Types V) : Ext → List (Grid V) → Res Str
  | _, [] => .ok []
  | e, g :: gs => do
    let a ← wGrid cfg p T e g
    let b ← wGrids cfg p T (if cfg.mhd then e.upd g else e) gs
    return a ++ b

/-- The parameters `time/time` and `time/nstep` set before writing, src/restart.c:541-542
(`fmtE` is the format `%e`). -/
def stamp {V : Type} (fmtE : V → Str) (M : Mesh V) (db : DB) : DB :=
  parSeti (parSets db "time".toList "time".toList (fmtE M.time) (some "Current Simulation Time".toList))
    "time".toList "nstep".toList M.nstep (some "Current Simulation Time Step".toList)

/-- `dump_restart`, src/restart.c:481-980; `user` is what `problem_write_restart` writes. -/
def dumpRestart {V : Type} (cfg : Cfg) (p : Plat V) (fmtE : V → Str) (db : DB) (M : Mesh V) (user : Str) :
    Res Str := do
  let gs ← wGrids cfg p M.types ⟨0, 0, 0⟩ M.grids
  return parDump 2 (stamp fmtE M db) ++ ("N_STEP\n".toList ++ (p.I.enc M.nstep ++ (header "TIME".toList ++
    (p.R.enc M.time ++ (header "TIME_STEP".toList ++ (p.R.enc M.dt ++
    ((if cfg.sts then p.R.enc M.diffDt ++ (p.I.enc M.nSTS ++ p.R.enc M.nuSTS) else []) ++
    (gs ++ (header "USER_DATA".toList ++ user)))))))))

/-! ## Reading -/

/-- At most `n` bytes up to and including the next newline. -/
def fgetsGo : Nat → Str → Str × Str
  | 0, s => ([], s)
  | _+1, [] => ([], [])
  | n+1, c :: s => if c = '\n' then (['\n'], s) else ((c :: (fgetsGo n s).1), (fgetsGo n s).2)

/-- `fgets(line,MAXLEN,fp)`: the new contents of `line` and the rest of the file; at the end of the
file `line` is not changed. -/
def fgets (line f : Str) : Str × Str := if f = [] then (line, f) else fgetsGo (MAXLEN - 1) f

/-- `strncmp(a,b,n) == 0` for the C strings in the buffers `a` and `b`. -/
def strncmp0 (a b : Str) (n : Nat) : Bool := ((cstr a 0) ++ [NUL]).take n = ((cstr b 0) ++ [NUL]).take n

/-- `fread(&x,size,1,fp)`.  At the end of the file `x` keeps bytes nobody has checked: `ub`. -/
def fread {α : Type} (c : Codec α) (f : Str) : Res (α × Str) :=
  if f.length < c.size then .ub else .ok (c.dec (f.take c.size), f.drop c.size)

theorem fgetsGo_length (n : Nat) : ∀ s : Str, (fgetsGo n s).2.length ≤ s.length := by
  induction n with
  | zero => intro s; simp [fgetsGo]
  | succ n ih =>
    intro s
    cases s with
    | nil => simp [fgetsGo]
    | cons c s =>
      unfold fgetsGo
      split_ifs
      · simp
      · have := ih s; simp; omega

theorem fgets_lt (line f : Str) (h : f ≠ []) : (fgets line f).2.length < f.length := by
  unfold fgets
  rw [if_neg h]
  cases f with
  | nil => exact absurd rfl h
  | cons c s =>
    show (fgetsGo (254+1) (c :: s)).2.length < _
    unfold fgetsGo
    split_ifs
    · simp
    · have := fgetsGo_length 254 s; simp; omega

/-- Skipping the parameters, src/restart.c:80-82.  At the end of the file the loop never ends: `ub`. -/
def skipPar (line f : Str) : Res Str :=
  if h : f = [] then .ub
  else
    if strncmp0 (fgets line f).1 "<par_end>".toList 9 then .ok (fgets line f).2
    else skipPar (fgets line f).1 (fgets line f).2
termination_by f.length
decreasing_by exact fgets_lt line f h

/-- The two `fgets` and the comparison before every section, e.g. src/restart.c:132-135.
The contents of `line` left by the previous section do not matter unless the file has ended
(then every comparison fails, as here). -/
def rHdr (h : Str) (n : Nat) (f : Str) : Res Str :=
  let a := fgets [] f
  let b := fgets a.1 a.2
  if strncmp0 b.1 h n then .ok b.2 else .fatal

/-- The reading loop over zones, e.g. src/restart.c:136-142. -/
def rLoop {V : Type} (p : Plat V) : List Idx → (Idx → V) → Str → Res ((Idx → V) × Str)
  | [], a, f => .ok (a, f)
  | x :: xs, a, f => do
    let r ← fread p.R f
    rLoop p xs (Function.update a x r.1) r.2

/-- One section, e.g. src/restart.c:132-142; `n` is the third argument of `strncmp`. -/
def rSec {V : Type} (p : Plat V) (g : Grid V) (h : Str) (n : Nat) (idx : List Idx) (a : Idx → V) (f : Str) :
    Res ((Idx → V) × Str) := do
  let f ← rHdr h n f
  if idx.all (inB g) then rLoop p idx a f else .ub

/-- Section of a member of `ConsS`. -/
def rVar {V : Type} (p : Plat V) (h : Str) (n : Nat) (v : Var) (g : Grid V) (f : Str) : Res (Grid V × Str) := do
  let r ← rSec p g h n (zones g) (g.U v) f
  return ({ g with U := Function.update g.U v r.1 }, r.2)

/-- Passive scalars, src/restart.c:315-328 (`scalarstr` holds 16 bytes). -/
def rScalars {V : Type} (p : Plat V) : List Nat → Grid V → Str → Res (Grid V × Str)
  | [], g, f => .ok (g, f)
  | n :: ns, g, f =>
    if (scalarHdr n).length < 16 then do
      let r ← rVar p (scalarHdr n) 8 (.s n) g f
      rScalars p ns r.1 r.2
    else .ub

/-- `U[k][j][i].v = f(k,j,i)` in the triple loop over the active zones. -/
def setZones {V : Type} (g : Grid V) (v : Var) (fn : Idx → V) : Grid V :=
  { g with U := Function.update g.U v (fun x => if x ∈ zones g then fn x else g.U v x) }

/-- Cell-centred fields from the interface fields, src/restart.c:257-308 (Cartesian coordinates).
The reads at `i+1` are inside the section just read. -/
def centre {V : Type} (p : Plat V) (e : Ext) (g : Grid V) : Grid V :=
  let g := setZones g .B1c (fun x => if e.ib = 1 then p.avg (g.B1i x) (g.B1i (x.1, x.2.1, x.2.2 + 1)) else g.B1i x)
  let g := setZones g .B2c (fun x => if e.jb = 1 then p.avg (g.B2i x) (g.B2i (x.1, x.2.1 + 1, x.2.2)) else g.B2i x)
  setZones g .B3c (fun x => if e.kb = 1 then p.avg (g.B3i x) (g.B3i (x.1 + 1, x.2.1, x.2.2)) else g.B3i x)

/-- Magnetic field, src/restart.c:203-309. -/
def rField {V : Type} (p : Plat V) (e : Ext) (g : Grid V) (f : Str) : Res (Grid V × Str) := do
  let b1 ← rSec p g "1-FIELD".toList 7 (faces1 g e) g.B1i f
  let b2 ← rSec p g "2-FIELD".toList 7 (faces2 g e) g.B2i b1.2
  let b3 ← rSec p g "3-FIELD".toList 7 (faces3 g e) g.B3i b2.2
  return (centre p e { g with B1i := b1.1, B2i := b2.1, B3i := b3.1 }, b3.2)

/-- Loop `for (p=0; p<pG->nparticle; p++)` reading one member, e.g. src/restart.c:364-366. -/
def rPartLoop {V α : Type} (c : Codec α) (set : Part V → α → Part V) : List Nat → (Nat → Part V) → Str →
    Res ((Nat → Part V) × Str)
  | [], a, f => .ok (a, f)
  | i :: is, a, f => do
    let r ← fread c f
    rPartLoop c set is (Function.update a i (set (a i) r.1)) r.2

/-- Section of one member of all particles, e.g. src/restart.c:360-366. -/
def rPart {V α : Type} (c : Codec α) (h : Str) (n : Nat) (set : Part V → α → Part V) (g : Grid V) (f : Str) :
    Res (Grid V × Str) := do
  let f ← rHdr h n f
  if g.nparticle ≤ g.arrsize then do
    let r ← rPartLoop c set (List.range g.nparticle) g.part f
    return ({ g with part := r.1 }, r.2)
  else .ub

/-- The property list, src/restart.c:344-352. -/
def rTypeLoop {V : Type} (cfg : Cfg) (p : Plat V) : List Nat → (Nat → PType V) → Str →
    Res ((Nat → PType V) × Str)
  | [], a, f => .ok (a, f)
  | i :: is, a, f => do
    let m ← bif cfg.feedback then fread p.R f else .ok ((a i).m, f)
    let rad ← fread p.R m.2
    let rho ← fread p.R rad.2
    let ts ← fread p.R rho.2
    let gr ← fread p.R ts.2
    rTypeLoop cfg p is (Function.update a i
      { a i with m := m.1, rad := rad.1, rho := rho.1, tstop0 := ts.1, grrhoa := gr.1 }) gr.2

/-- The integrators, src/restart.c:355-356. -/
def rIntegLoop {V : Type} (p : Plat V) : List Nat → (Nat → PType V) → Str → Res ((Nat → PType V) × Str)
  | [], a, f => .ok (a, f)
  | i :: is, a, f => do
    let r ← fread p.S f
    rIntegLoop p is (Function.update a i { a i with integrator := r.1 }) r.2

/-- `particle_realloc` as called in src/restart.c:340-341 (src/particles/init_particle.c:195-197).
Only the lower bound `n` of the new size is modelled, not the growth by 20%. -/
def realloc (arrsize n : Nat) : Nat := if n + 2 > arrsize then n + 2 else arrsize

/-- Particle types, src/restart.c:334-356. -/
def rTypes {V : Type} (cfg : Cfg) (p : Plat V) (T : Types V) (g : Grid V) (f : Str) :
    Res (Types V × Grid V × Str) := do
  let f ← rHdr "PARTICLE LIST".toList 13 f
  let np ← fread p.L f
  let nt ← fread p.I np.2
  if nt.1.toNat ≤ T.alloc then do
    let a ← rTypeLoop cfg p (List.range nt.1.toNat) T.prop nt.2
    let al ← fread p.R a.2
    let b ← rIntegLoop p (List.range nt.1.toNat) a.1 al.2
    return ({ T with n := nt.1.toNat, prop := b.1, alam := al.1 },
      { g with nparticle := np.1.toNat, arrsize := realloc g.arrsize np.1.toNat }, b.2)
  else .ub

/-- `grproperty[pG->particle[p].property].num += 1`, src/restart.c:454-455. -/
def countNum {V : Type} (n : Nat) : List (Part V) → (Nat → PType V) → Res (Nat → PType V)
  | [], a => .ok a
  | q :: qs, a =>
    if 0 ≤ q.property ∧ q.property < n then
      countNum n qs (Function.update a q.property.toNat { a q.property.toNat with num := (a q.property.toNat).num + 1 })
    else .ub

/-- Particles, src/restart.c:331-458. -/
def rParticles {V : Type} (cfg : Cfg) (p : Plat V) (T : Types V) (g : Grid V) (f : Str) :
    Res (Types V × Grid V × Str) := do
  let h ← rTypes cfg p T g f
  let x1 ← rPart p.R "PARTICLE X1".toList 11 (fun q v => { q with x1 := v }) h.2.1 h.2.2
  let x2 ← rPart p.R "PARTICLE X2".toList 11 (fun q v => { q with x2 := v }) x1.1 x1.2
  let x3 ← rPart p.R "PARTICLE X3".toList 11 (fun q v => { q with x3 := v }) x2.1 x2.2
  let v1 ← rPart p.R "PARTICLE V1".toList 11 (fun q v => { q with v1 := v }) x3.1 x3.2
  let v2 ← rPart p.R "PARTICLE V2".toList 11 (fun q v => { q with v2 := v }) v1.1 v1.2
  let v3 ← rPart p.R "PARTICLE V3".toList 11 (fun q v => { q with v3 := v }) v2.1 v2.2
  let pr ← rPart p.I "PARTICLE PROPERTY".toList 17 (fun q v => { q with property := v, pos := 1 }) v3.1 v3.2
  let my ← rPart p.L "PARTICLE MY_ID".toList 14 (fun q v => { q with my_id := v }) pr.1 pr.2
  let ii ← bif cfg.mpi then rPart p.I "PARTICLE INIT_ID".toList 16 (fun q v => { q with init_id := v }) my.1 my.2
    else .ok my
  let prop ← countNum h.1.n ((List.range ii.1.nparticle).map ii.1.part)
    (fun i => if i < h.1.n then { h.1.prop i with num := 0 } else h.1.prop i)
  return ({ h.1 with prop := prop }, ii.1, ii.2)

/-- One Grid, src/restart.c:118-460. -/
def rGrid {V : Type} (cfg : Cfg) (p : Plat V) (time dt : V) (T : Types V) (e : Ext) (g : Grid V) (f : Str) :
    Res (Types V × Grid V × Str) := do
  let g := { g with time := time, dt := dt }
  let r ← rVar p "DENSITY".toList 7 .d g f
  let r ← rVar p "1-MOMENTUM".toList 10 .M1 r.1 r.2
  let r ← rVar p "2-MOMENTUM".toList 10 .M2 r.1 r.2
  let r ← rVar p "3-MOMENTUM".toList 10 .M3 r.1 r.2
  let r ← bif cfg.barotropic then .ok r else rVar p "ENERGY".toList 6 .E r.1 r.2
  let r ← bif cfg.mhd then rField p (e.upd g) r.1 r.2 else .ok r
  let r ← rScalars p (List.range cfg.nscalars) r.1 r.2
  if cfg.particles then rParticles cfg p T r.1 r.2 else return (T, r.1, r.2)

/-- The loop over Grids, src/restart.c:114-461. -/
def rGrids {V : Type} (cfg : Cfg) (p : Plat V) (time dt : V) : Types V → Ext → List (Grid V) → Str →
    Res (Types V × List (Grid V) × Str)
  | T, _, [], f => .ok (T, [], f)
  | T, e, g :: gs, f => do
    let r ← rGrid cfg p time dt T e g f
    let q ← rGrids cfg p time dt r.1 (if cfg.mhd then e.upd g else e) gs r.2.2
    return (q.1, r.2.1 :: q.2.1, q.2.2)

/-- The super time stepping data, src/restart.c:106-110. -/
def rSts {V : Type} (p : Plat V) (f : Str) : Res ((V × Int × V) × Str) := do
  let a ← fread p.R f
  let b ← fread p.I a.2
  let c ← fread p.R b.2
  return ((a.1, b.1, c.1), c.2)

/-- `restart_grids`, src/restart.c:55-474, into the mesh `M` set up by `init_mesh` and `init_grid`;
the result is the new mesh and the rest of the file, which `problem_read_restart` gets. -/
def restartGrids {V : Type} (cfg : Cfg) (p : Plat V) (M : Mesh V) (file : Str) : Res (Mesh V × Str) := do
  let f ← skipPar [] file
  let l := fgets [] f
  if strncmp0 l.1 "N_STEP".toList 6 then do
    let ns ← fread p.I l.2
    let f ← rHdr "TIME".toList 4 ns.2
    let t ← fread p.R f
    let f ← rHdr "TIME_STEP".toList 9 t.2
    let dt ← fread p.R f
    let s ← bif cfg.sts then rSts p dt.2 else .ok ((M.diffDt, M.nSTS, M.nuSTS), dt.2)
    let r ← rGrids cfg p t.1 dt.1 M.types ⟨0, 0, 0⟩ M.grids s.2
    let f ← rHdr "USER_DATA".toList 9 r.2.2
    return ({ nstep := ns.1, time := t.1, dt := dt.1, diffDt := s.1.1, nSTS := s.1.2.1, nuSTS := s.1.2.2,
              grids := r.2.1, types := r.1 }, f)
  else .fatal

end Athena.Run.Rst
