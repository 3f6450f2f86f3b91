import Verif.Base
import Verif.Io.Fname
import Mathlib.Logic.Equiv.Basic
import Mathlib.Algebra.Group.End
import Mathlib.Data.List.Perm.Basic
import Mathlib.Data.List.Nodup
import Mathlib.Data.List.Sort
import Mathlib.Data.Int.Interval
import Mathlib.Tactic.SplitIfs
import Mathlib.Tactic.Ring

/-!
# Lists of particles: src/particles/output_particle.c (`dump_particle_binary`), vis/particle/join_lis.c and vis/particle/sort_lis.c

A file is the sequence of values written to it; to read a value as another type than it was written, or beyond the end, is `ub` here (the programs
do not check).  `float` values are opaque.  `int` and `long` do not overflow, and `calloc` does not fail.
-/

namespace Athena.Lis

open Athena.Fname (Str dec decPad fname Args documented opt pathPart fname_documented)

/-- A value in a file. -/
inductive Word (F : Type)
  | f (x : F)
  | i (n : ℤ)
  | l (n : ℤ)

variable {R F : Type}

/-- A particle and its density `parsub[p].dpar`: `GrainS`, `GrainAux`, src/athena.h. -/
structure Grain (R : Type) where
  x1 : R
  x2 : R
  x3 : R
  v1 : R
  v2 : R
  v3 : R
  dpar : R
  property : ℤ
  my_id : ℤ
  init_id : ℤ
  pos : ℤ

/-- One process: limits of its Grid and of the root Domain, radii of the particle types, time, time step and particles. -/
structure Proc (R : Type) where
  min : Fin 3 → R
  max : Fin 3 → R
  rmin : Fin 3 → R
  rmax : Fin 3 → R
  rad : List R
  time : R
  dt : R
  particle : List (Grain R)

/-! ## `dump_particle_binary` -/

/-- `fdata[]` of the limits, output_particle.c:206-219. -/
def limits (fl : R → F) (a b : Fin 3 → R) : List (Word F) :=
  [.f (fl (a 0)), .f (fl (b 0)), .f (fl (a 1)), .f (fl (b 1)), .f (fl (a 2)), .f (fl (b 2))]

/-- What is written for a particle, output_particle.c:247-264. -/
def record (fl : R → F) (g : Grain R) : List (Word F) :=
  [.f (fl g.x1), .f (fl g.x2), .f (fl g.x3), .f (fl g.v1), .f (fl g.v2), .f (fl g.v3), .f (fl g.dpar), .i g.property, .l g.my_id, .i g.init_id]

/-- `nout`, output_particle.c:198-201. -/
def nout (sel : Grain R → Bool) (l : List (Grain R)) : ℤ := l.foldl (fun n g => if sel g then n + 1 else n) 0

/-- `dump_particle_binary`, output_particle.c:197-269, for the `par_prop` function `sel`; `fl` is the conversion to `float`. -/
def dump (fl : R → F) (sel : Grain R → Bool) (P : Proc R) : List (Word F) :=
  limits fl P.min P.max ++ limits fl P.rmin P.rmax ++ [.i P.rad.length] ++ P.rad.map (fun r => .f (fl r)) ++ [.f (fl P.time), .f (fl P.dt)]
    ++ [.l (nout sel P.particle)] ++ P.particle.flatMap fun g => if sel g then record fl g else []

/-! ## Reading -/

/-- `fread(…,sizeof(float),1,…)`. -/
def readF : List (Word F) → Res (F × List (Word F))
  | .f x :: r => .ok (x, r)
  | _ => .ub
/-- `fread(…,sizeof(int),1,…)`. -/
def readI : List (Word F) → Res (ℤ × List (Word F))
  | .i x :: r => .ok (x, r)
  | _ => .ub
/-- `fread(…,sizeof(long),1,…)`. -/
def readL : List (Word F) → Res (ℤ × List (Word F))
  | .l x :: r => .ok (x, r)
  | _ => .ub
/-- `fread(…,sizeof(float),n,…)`; also `fseek(…,n*sizeof(float),SEEK_CUR)`. -/
def readFs : ℕ → List (Word F) → Res (List F × List (Word F))
  | 0, r => .ok ([], r)
  | n + 1, r => do
    let (x, r) ← readF r
    let (xs, r) ← readFs n r
    return (x :: xs, r)

/-- What the programs keep of a particle: 7 numbers, `property`, `pid`, `cpuid`. -/
structure Rec (F : Type) where
  data : List F
  property : ℤ
  pid : ℤ
  cpuid : ℤ

/-- join_lis.c:179-182, sort_lis.c:117-120. -/
def readRec (r : List (Word F)) : Res (Rec F × List (Word F)) := do
  let (d, r) ← readFs 7 r
  let (p, r) ← readI r
  let (i, r) ← readL r
  let (c, r) ← readI r
  return (⟨d, p, i, c⟩, r)

/-- join_lis.c:177-188, sort_lis.c:115-121: `n` particles. -/
def readRecs : ℕ → List (Word F) → Res (List (Rec F) × List (Word F))
  | 0, r => .ok ([], r)
  | n + 1, r => do
    let (x, r) ← readRec r
    let (xs, r) ← readRecs n r
    return (x :: xs, r)

/-- The part of a file before the particles. -/
structure Head (F : Type) where
  lims : List F
  ntype : ℤ
  typeinfo : List F
  time : List F
  n : ℤ

/-- join_lis.c:125-129 and 157-161, sort_lis.c:98-106. -/
def readHead (r : List (Word F)) : Res (Head F × List (Word F)) := do
  let (b, r) ← readFs 12 r
  let (t, r) ← readI r
  let (ti, r) ← readFs t.toNat r
  let (tm, r) ← readFs 2 r
  let (n, r) ← readL r
  return (⟨b, t, ti, tm, n⟩, r)

/-- join_lis.c:169-173, sort_lis.c:135-139. -/
def writeHead (h : Head F) : List (Word F) := h.lims.map .f ++ [.i h.ntype] ++ h.typeinfo.map .f ++ h.time.map .f ++ [.l h.n]
/-- join_lis.c:184-187, sort_lis.c:144-147. -/
def writeRec (x : Rec F) : List (Word F) := x.data.map .f ++ [.i x.property, .l x.pid, .i x.cpuid]

/-! ## `join_lis` -/

/-- `in_name`, join_lis.c:116-119 and 149-152. -/
def inName (base : Str) (i : ℕ) (post : Str) (p : ℕ) : Str :=
  if p = 0 then "id".toList ++ dec p ++ '/' :: base ++ '.' :: decPad 4 i ++ '.' :: post ++ ".lis".toList
  else "id".toList ++ dec p ++ '/' :: base ++ "-id".toList ++ dec p ++ '.' :: decPad 4 i ++ '.' :: post ++ ".lis".toList

/-- `sprintf` into `in_name[100]` and `fopen`. -/
def openIn (fs : Str → Option (List (Word F))) (base : Str) (num : ℕ) (post : Str) (p : ℕ) : Res (List (Word F)) :=
  if 100 ≤ (inName base num post p).length then .ub
  else match fs (inName base num post p) with
    | none => .fatal
    | some r => .ok r

/-- The body of the loop of Step 1, join_lis.c:116-133. -/
def count1 (fs : Str → Option (List (Word F))) (base : Str) (num : ℕ) (post : Str) (ntot : ℤ) (p : ℕ) : Res (ℤ × ℤ) := do
  let r ← openIn fs base num post p
  let (h, _) ← readHead r
  return (ntot + h.n, h.ntype)

/-- Step 1, join_lis.c:113-134: `ntot` and the last `ntype`. -/
def count (fs : Str → Option (List (Word F))) (base : Str) (num : ℕ) (post : Str) : List ℕ → ℤ × ℤ → Res (ℤ × ℤ)
  | [], n => .ok n
  | p :: ps, n => do count fs base num post ps (← count1 fs base num post n.1 p)

/-- The body of the loop of Step 2, join_lis.c:149-190; `cap` is the length of `typeinfo`; `ntot` goes into the header, whose first six numbers are replaced by the next six. -/
def copy1 (fs : Str → Option (List (Word F))) (base : Str) (num : ℕ) (post : Str) (ntot cap : ℤ) (p : ℕ) : Res (List (Word F)) := do
  let r ← openIn fs base num post p
  let (h, r) ← readHead r
  if cap < h.ntype then .ub else
  let head := if p = 0 then writeHead { h with lims := (h.lims.drop 6).take 6 ++ h.lims.drop 6, n := ntot } else []
  let (xs, _) ← readRecs h.n.toNat r
  return head ++ xs.flatMap writeRec

/-- Step 2, join_lis.c:147-191. -/
def copyAll (fs : Str → Option (List (Word F))) (base : Str) (num : ℕ) (post : Str) (ntot cap : ℤ) : List ℕ → Res (List (Word F))
  | [] => .ok []
  | p :: ps => do
    let a ← copy1 fs base num post ntot cap p
    let b ← copyAll fs base num post ntot cap ps
    return a ++ b

/-- `join_lis` for one file number, join_lis.c:112-196: the contents of the output file. -/
def join (fs : Str → Option (List (Word F))) (base : Str) (num : ℕ) (post : Str) (nproc : ℕ) : Res (List (Word F)) := do
  let (ntot, ntype) ← count fs base num post (List.range nproc) (0, 0)
  copyAll fs base num post ntot ntype (List.range nproc)

/-! ## `sort_lis` -/

/-- The comparison of sort_lis.c:188. -/
def less (c p : ℕ → ℤ) (a b : ℕ) : Bool := c a < c b ∨ (c a = c b ∧ p a < p b)

/-- The `while` loop, sort_lis.c:184-196, with `m` passes left: `i`, `pivot` and `order`. -/
def partLoop (lt : ℕ → ℕ → Bool) : ℕ → ℤ → ℤ → (ℤ → ℕ) → ℤ × (ℤ → ℕ)
  | 0, _, pv, o => (pv, o)
  | m + 1, i, pv, o =>
    let a := o i
    let b := o pv
    if lt a b then
      let o := Function.update o pv a
      let pv := pv + 1
      let o := Function.update o i (o pv)
      let o := Function.update o pv b
      partLoop lt m (i + 1) pv o
    else partLoop lt m (i + 1) pv o

/-- `quicksort`, sort_lis.c:165-203; `ub` if the recursion is deeper than `fuel`. -/
def quicksort (lt : ℕ → ℕ → Bool) : ℕ → ℤ → ℤ → (ℤ → ℕ) → Res (ℤ → ℕ)
  | 0, _, _, _ => .ub
  | fuel + 1, ns, ne, o =>
    if ne ≤ ns then .ok o
    else
      let pv := (ns + ne + 1).tdiv 2
      let ind := o pv
      let o := Function.update o pv (o ns)
      let o := Function.update o ns ind
      let r := partLoop lt (ne - ns).toNat (ns + 1) ns o
      (quicksort lt fuel ns (r.1 - 1) r.2).bind fun o => quicksort lt fuel (r.1 + 1) ne o

/-- `sort_lis` for one file, sort_lis.c:97-153, the name of the file apart: for no particles `calloc_2d_array` (:254-259) writes to
`array[0]` of an array of no elements. -/
def sortLis (r : List (Word F)) : Res (List (Word F)) := do
  let (h, r) ← readHead r
  if h.n ≤ 0 then .ub else
  let (xs, _) ← readRecs h.n.toNat r
  let dflt : Rec F := ⟨[], 0, 0, 0⟩
  let o ← quicksort (less (fun k => (xs.getD k dflt).cpuid) (fun k => (xs.getD k dflt).pid)) (h.n.toNat + 1) 0 (h.n - 1) (fun p => p.toNat)
  return writeHead h ++ (List.range h.n.toNat).flatMap fun (p : ℕ) => writeRec (xs.getD (o p) dflt)

/-! ## Specification -/

/-- The particles selected, as they are kept. -/
def keep (fl : R → F) (sel : Grain R → Bool) (l : List (Grain R)) : List (Rec F) :=
  (l.filter sel).map fun g => ⟨[fl g.x1, fl g.x2, fl g.x3, fl g.v1, fl g.v2, fl g.v3, fl g.dpar], g.property, g.my_id, g.init_id⟩

/-- A file with the particles `l` and the limits of the root Domain. -/
def listFile (fl : R → F) (P : Proc R) (l : List (Rec F)) : List (Word F) :=
  limits fl P.rmin P.rmax ++ limits fl P.rmin P.rmax ++ [.i P.rad.length] ++ P.rad.map (fun r => .f (fl r)) ++ [.f (fl P.time), .f (fl P.dt), .l l.length]
    ++ l.flatMap writeRec

/-- First by process of origin, then by number. -/
def Before (a b : Rec F) : Prop := a.cpuid < b.cpuid ∨ (a.cpuid = b.cpuid ∧ a.pid < b.pid)

/-! ## Reading what was written -/

theorem readFs_map (l : List F) (r : List (Word F)) : readFs l.length (l.map .f ++ r) = .ok (l, r) := by
  induction l with
  | nil => rfl
  | cons a l ih =>
    show (readFs l.length (l.map .f ++ r)).bind _ = _
    rw [ih]; rfl

theorem readRec_write (x : Rec F) (h : x.data.length = 7) (r : List (Word F)) : readRec (writeRec x ++ r) = .ok (x, r) := by
  unfold readRec writeRec
  rw [List.append_assoc, ← h, readFs_map]
  rfl

theorem readRecs_write (l : List (Rec F)) (h : ∀ x ∈ l, x.data.length = 7) (r : List (Word F)) :
    readRecs l.length (l.flatMap writeRec ++ r) = .ok (l, r) := by
  induction l with
  | nil => rfl
  | cons a l ih =>
    rw [List.flatMap_cons, List.append_assoc, List.length_cons]
    unfold readRecs
    rw [readRec_write a (h a (List.mem_cons_self ..))]
    show (readRecs l.length (l.flatMap writeRec ++ r)).bind _ = _
    rw [ih (fun x hx => h x (List.mem_cons_of_mem _ hx))]
    rfl

theorem readHead_write (h : Head F) (hl : h.lims.length = 12) (ht : h.ntype = h.typeinfo.length) (hm : h.time.length = 2) (r : List (Word F)) :
    readHead (writeHead h ++ r) = .ok (h, r) := by
  unfold readHead writeHead
  simp only [List.append_assoc]
  rw [← hl, readFs_map]
  show (readFs h.ntype.toNat (h.typeinfo.map Word.f ++ _)).bind _ = _
  rw [ht, Int.toNat_natCast, readFs_map]
  show (readFs 2 (h.time.map Word.f ++ _)).bind _ = _
  rw [← hm, readFs_map]
  show Res.ok (({ lims := h.lims, ntype := _, typeinfo := h.typeinfo, time := h.time, n := h.n } : Head F), r) = _
  rw [← ht]

/-- The head of the file of a process. -/
def headOf (fl : R → F) (P : Proc R) (a b : Fin 3 → R) (n : ℤ) : Head F :=
  ⟨[fl (a 0), fl (b 0), fl (a 1), fl (b 1), fl (a 2), fl (b 2), fl (P.rmin 0), fl (P.rmax 0), fl (P.rmin 1), fl (P.rmax 1), fl (P.rmin 2), fl (P.rmax 2)],
    P.rad.length, P.rad.map fl, [fl P.time, fl P.dt], n⟩

theorem nout_keep (fl : R → F) (sel : Grain R → Bool) (l : List (Grain R)) : nout sel l = (keep fl sel l).length := by
  have : ∀ (n : ℤ), l.foldl (fun n g => if sel g then n + 1 else n) n = n + (l.filter sel).length := by
    induction l with
    | nil => simp
    | cons g l ih =>
      intro n
      rw [List.foldl_cons, ih, List.filter_cons]
      cases sel g <;> simp
      ring
  unfold nout keep
  rw [this, List.length_map]
  ring

theorem dump_eq (fl : R → F) (sel : Grain R → Bool) (P : Proc R) :
    dump fl sel P = writeHead (headOf fl P P.min P.max (keep fl sel P.particle).length) ++ (keep fl sel P.particle).flatMap writeRec := by
  have e : (P.particle.flatMap fun g => if sel g then record fl g else []) = (keep fl sel P.particle).flatMap writeRec := by
    unfold keep
    induction P.particle with
    | nil => rfl
    | cons g l ih =>
      rw [List.flatMap_cons, ih, List.filter_cons]
      cases sel g
      · simp
      · simp only [if_true, List.map_cons, List.flatMap_cons]; rfl
  unfold dump
  rw [e, nout_keep fl]
  unfold writeHead headOf limits
  simp [List.map_map, Function.comp_def]

theorem keep_len (fl : R → F) (sel : Grain R → Bool) (l : List (Grain R)) : ∀ x ∈ keep fl sel l, x.data.length = 7 := by
  intro x hx
  obtain ⟨g, -, rfl⟩ := List.mem_map.1 hx
  rfl

theorem headOf_read (fl : R → F) (P : Proc R) (a b : Fin 3 → R) (n : ℤ) (r : List (Word F)) :
    readHead (writeHead (headOf fl P a b n) ++ r) = .ok (headOf fl P a b n, r) :=
  readHead_write _ rfl (by simp [headOf]) rfl r

theorem listFile_eq (fl : R → F) (P : Proc R) (l : List (Rec F)) :
    listFile fl P l = writeHead (headOf fl P P.rmin P.rmax l.length) ++ l.flatMap writeRec := by
  unfold listFile writeHead headOf limits
  simp [List.map_map, Function.comp_def]

/-! ## The joined file -/

section
variable {fs : Str → Option (List (Word F))} {base : Str} {num : ℕ} {post : Str} {fl : R → F} {sel : Grain R → Bool} {Ps : ℕ → Proc R}

theorem count_eq (l : List ℕ) (h : ∀ p ∈ l, openIn fs base num post p = .ok (dump fl sel (Ps p))) (hr : ∀ p ∈ l, (Ps p).rad = (Ps 0).rad)
    (n : ℤ × ℤ) (hn : n.2 = (Ps 0).rad.length ∨ l ≠ []) :
    count fs base num post l n = .ok (n.1 + (l.flatMap fun p => keep fl sel (Ps p).particle).length, ((Ps 0).rad.length : ℤ)) := by
  induction l generalizing n with
  | nil =>
    have : n.2 = (Ps 0).rad.length := by simpa using hn
    simp [count, ← this]
  | cons p l ih =>
    unfold count count1
    rw [h p (List.mem_cons_self ..), dump_eq]
    show Res.bind (Res.bind (readHead (writeHead _ ++ _)) _) _ = _
    rw [headOf_read]
    show count fs base num post l (n.1 + ((keep fl sel (Ps p).particle).length : ℤ), ((Ps p).rad.length : ℤ)) = _
    rw [ih (fun q hq => h q (List.mem_cons_of_mem _ hq)) (fun q hq => hr q (List.mem_cons_of_mem _ hq)) _
      (Or.inl (by rw [hr p (List.mem_cons_self ..)])), List.flatMap_cons, List.length_append]
    push_cast
    rw [add_assoc]

theorem copyAll_eq (ntot : ℤ) (l : List ℕ) (hr : ∀ p ∈ l, (Ps p).rad = (Ps 0).rad) (h : ∀ p ∈ l, openIn fs base num post p = .ok (dump fl sel (Ps p))) (h0 : ∀ p ∈ l, p ≠ 0) :
    copyAll fs base num post ntot ((Ps 0).rad.length : ℤ) l = .ok (l.flatMap fun p => (keep fl sel (Ps p).particle).flatMap writeRec) := by
  induction l with
  | nil => rfl
  | cons p l ih =>
    unfold copyAll copy1
    rw [h p (List.mem_cons_self ..), dump_eq]
    show Res.bind (Res.bind (readHead (writeHead _ ++ _)) _) _ = _
    rw [headOf_read]
    have e := readRecs_write (keep fl sel (Ps p).particle) (keep_len fl sel _) []
    rw [List.append_nil] at e
    show Res.bind (if ((Ps 0).rad.length : ℤ) < ((Ps p).rad.length : ℤ) then _ else Res.bind (readRecs _ _) _) _ = _
    rw [if_neg (by rw [hr p (List.mem_cons_self ..)]; exact lt_irrefl _), show (headOf fl (Ps p) (Ps p).min (Ps p).max ((keep fl sel (Ps p).particle).length : ℤ)).n.toNat = (keep fl sel (Ps p).particle).length from rfl, e]
    show Res.bind (copyAll fs base num post ntot _ l) _ = _
    rw [ih (fun q hq => hr q (List.mem_cons_of_mem _ hq)) (fun q hq => h q (List.mem_cons_of_mem _ hq)) (fun q hq => h0 q (List.mem_cons_of_mem _ hq)), if_neg (h0 p (List.mem_cons_self ..))]
    rw [List.flatMap_cons]
    rfl

/-- **The joined list.**  From the files that the processes of a run have written, `join_lis` makes the file with the particles selected on all
processes, one process after the other, and the limits of the root Domain. -/
theorem join_all (n : ℕ) (hr : ∀ p < n + 1, (Ps p).rad = (Ps 0).rad) (h : ∀ p < n + 1, (inName base num post p).length < 100 ∧ fs (inName base num post p) = some (dump fl sel (Ps p))) :
    join fs base num post (n + 1) = .ok (listFile fl (Ps 0) ((List.range (n + 1)).flatMap fun p => keep fl sel (Ps p).particle)) := by
  have ho : ∀ p < n + 1, openIn fs base num post p = .ok (dump fl sel (Ps p)) := by
    intro p hp
    unfold openIn
    rw [if_neg (by have := (h p hp).1; omega), (h p hp).2]
  unfold join
  rw [count_eq (Ps := Ps) (fl := fl) (sel := sel) _ (fun p hp => ho p (List.mem_range.1 hp)) (fun p hp => hr p (List.mem_range.1 hp)) _
    (Or.inr (by simp))]
  show copyAll fs base num post _ _ (List.range (n + 1)) = _
  dsimp only
  rw [zero_add]
  set L := (List.range (n + 1)).flatMap fun p => keep fl sel (Ps p).particle with hL
  rw [List.range_succ_eq_map] at hL ⊢
  unfold copyAll copy1
  rw [ho 0 (by omega), dump_eq]
  show Res.bind (Res.bind (readHead (writeHead _ ++ _)) _) _ = _
  rw [headOf_read]
  have e := readRecs_write (keep fl sel (Ps 0).particle) (keep_len fl sel _) []
  rw [List.append_nil] at e
  show Res.bind (if ((Ps 0).rad.length : ℤ) < ((Ps 0).rad.length : ℤ) then _ else Res.bind (readRecs _ _) _) _ = _
  rw [if_neg (lt_irrefl _), show (headOf fl (Ps 0) (Ps 0).min (Ps 0).max ((keep fl sel (Ps 0).particle).length : ℤ)).n.toNat = (keep fl sel (Ps 0).particle).length from rfl, e]
  show Res.bind (copyAll fs base num post _ _ (List.map Nat.succ (List.range n))) _ = _
  rw [copyAll_eq (Ps := Ps) (fl := fl) (sel := sel) _ _ (fun p hp => by
      obtain ⟨q, hq, rfl⟩ := List.mem_map.1 hp
      exact hr _ (by have := List.mem_range.1 hq; omega)) (fun p hp => by
      obtain ⟨q, hq, rfl⟩ := List.mem_map.1 hp
      exact ho _ (by have := List.mem_range.1 hq; omega)) (fun p hp => by
      obtain ⟨q, hq, rfl⟩ := List.mem_map.1 hp
      exact Nat.succ_ne_zero q), listFile_eq, hL, List.flatMap_cons, List.flatMap_append, if_pos rfl]
  show Res.ok _ = Res.ok _
  congr 1
  rw [List.append_assoc]
  congr 2
  rw [List.flatMap_assoc]

end

/-! ## The names -/

/-- The name that `dump_particle_binary` gives to its file (output_particle.c:160-163), in the directory `id<p>` to which the process has changed;
`outfilename` has `-id<p>` appended but on process 0 (src/main.c), and `num_digit` is 4. -/
def outName (base : Str) (i : ℕ) (post : Str) (p : ℕ) : Res Str :=
  fname ⟨none, if p = 0 then base else base ++ "-id".toList ++ dec p, none, none, 4, i, some post, "lis".toList⟩

/-- **Names.**  `join_lis` looks for the files under the names that they were given. -/
theorem names_meet (base : Str) (i : ℕ) (post : Str) (p : ℕ) (hi : i ≤ 2147483647) :
    ∃ w, outName base i post p = .ok w ∧ inName base i post p = "id".toList ++ dec p ++ '/' :: w := by
  refine ⟨_, (fname_documented _ (by simp) (by simpa using hi)).1, ?_⟩
  unfold inName documented
  simp only [pathPart, opt]
  split_ifs with h0 h1 h1
  · simp
  · simp at h1
  · simp
  · simp at h1

/-! ## The sorted file -/

/-- `o'` is `o` with the places from `ns` to `ne` permuted. -/
def PermOn (ns ne : ℤ) (o o' : ℤ → ℕ) : Prop := ∃ s : Equiv.Perm ℤ, (∀ x, x < ns ∨ ne < x → s x = x) ∧ ∀ x, o' x = o (s x)

theorem PermOn.refl (ns ne : ℤ) (o : ℤ → ℕ) : PermOn ns ne o o := ⟨1, fun _ _ => rfl, fun _ => rfl⟩

theorem PermOn.trans {ns ne : ℤ} {o p q : ℤ → ℕ} (h : PermOn ns ne o p) (h' : PermOn ns ne p q) : PermOn ns ne o q := by
  obtain ⟨s, a, b⟩ := h
  obtain ⟨t, c, d⟩ := h'
  exact ⟨s * t, fun x hx => by rw [Equiv.Perm.mul_apply, c x hx, a x hx], fun x => by rw [d, b, Equiv.Perm.mul_apply]⟩

theorem PermOn.mono {ns ne ns' ne' : ℤ} {o p : ℤ → ℕ} (h : PermOn ns ne o p) (h1 : ns' ≤ ns) (h2 : ne ≤ ne') : PermOn ns' ne' o p := by
  obtain ⟨s, a, b⟩ := h
  exact ⟨s, fun x hx => a x (by omega), b⟩

theorem PermOn.swap {ns ne i j : ℤ} (hi : ns ≤ i ∧ i ≤ ne) (hj : ns ≤ j ∧ j ≤ ne) (o : ℤ → ℕ) : PermOn ns ne o (o ∘ Equiv.swap i j) :=
  ⟨Equiv.swap i j, fun x hx => Equiv.swap_apply_of_ne_of_ne (by omega) (by omega), fun _ => rfl⟩

/-- A place in the range holds what was at a place in the range. -/
theorem PermOn.src {ns ne : ℤ} {o p : ℤ → ℕ} (h : PermOn ns ne o p) {x : ℤ} (hx : ns ≤ x ∧ x ≤ ne) : ∃ y, (ns ≤ y ∧ y ≤ ne) ∧ p x = o y := by
  obtain ⟨s, a, b⟩ := h
  refine ⟨s x, ?_, b x⟩
  by_contra hc
  have h1 : s (s x) = s x := a (s x) (by omega)
  have := s.injective h1
  omega

theorem PermOn.out {ns ne : ℤ} {o p : ℤ → ℕ} (h : PermOn ns ne o p) {x : ℤ} (hx : x < ns ∨ ne < x) : p x = o x := by
  obtain ⟨s, a, b⟩ := h
  rw [b, a x hx]

/-- The state of the loop. -/
theorem partLoop_spec (lt : ℕ → ℕ → Bool) (ns ne : ℤ) (m : ℕ) : ∀ (i pv : ℤ) (o : ℤ → ℕ) (b : ℕ), ns ≤ pv → pv < i → i + m = ne + 1 → o pv = b →
    (∀ x, ns ≤ x → x < pv → lt (o x) b = true) → (∀ x, pv < x → x < i → lt (o x) b = false) →
    let r := partLoop lt m i pv o
    PermOn ns ne o r.2 ∧ ns ≤ r.1 ∧ r.1 ≤ ne ∧ r.2 r.1 = b ∧ (∀ x, ns ≤ x → x < r.1 → lt (r.2 x) b = true) ∧
      (∀ x, r.1 < x → x ≤ ne → lt (r.2 x) b = false) := by
  induction m with
  | zero =>
    intro i pv o b h1 h2 h3 h4 h5 h6
    push_cast at h3
    exact ⟨PermOn.refl _ _ _, h1, by show pv ≤ ne; omega, h4, h5, fun x hx hx' => h6 x hx (by omega)⟩
  | succ m ih =>
    intro i pv o b h1 h2 h3 h4 h5 h6
    push_cast at h3
    unfold partLoop
    dsimp only
    by_cases hlt : lt (o i) (o pv) = true
    · rw [if_pos hlt]
      set o' := Function.update (Function.update (Function.update o pv (o i)) i (Function.update o pv (o i) (pv + 1))) (pv + 1) (o pv) with ho
      have e : o' = (o ∘ Equiv.swap pv i) ∘ Equiv.swap i (pv + 1) := by
        funext x
        simp only [ho, Function.comp, Function.update_apply, Equiv.swap_apply_def]
        split_ifs <;> first | rfl | omega | (congr 1; omega) | (subst_vars; first | rfl | omega)
      have hv : ∀ x, o' x = if x = pv + 1 then o pv else if x = i then o (pv + 1) else if x = pv then o i else o x := by
        intro x
        simp only [ho, Function.update_apply]
        split_ifs <;> first | rfl | omega
      have hP : PermOn ns ne o o' := by
        rw [e]
        exact (PermOn.swap (by omega) (by omega) o).trans (PermOn.swap (by omega) (by omega) _)
      obtain ⟨a1, a2, a3, a4, a5, a6⟩ := ih (i + 1) (pv + 1) o' b (by omega) (by omega) (by omega) (by rw [hv, if_pos rfl, h4])
        (by
          intro x hx hx'
          rw [hv, if_neg (by omega), if_neg (by omega)]
          split_ifs with g
          · rw [← h4]; exact hlt
          · exact h5 x hx (by omega))
        (by
          intro x hx hx'
          rw [hv, if_neg (by omega)]
          split_ifs with g1 g2
          · exact h6 _ (by omega) (by omega)
          · omega
          · exact h6 x (by omega) (by omega))
      exact ⟨hP.trans a1, a2, a3, a4, a5, a6⟩
    · rw [if_neg hlt]
      exact ih (i + 1) pv o b h1 (by omega) (by omega) h4 h5 (fun x hx hx' => by
        by_cases g : x = i
        · rw [g, ← h4]; exact Bool.eq_false_iff.2 hlt
        · exact h6 x hx (by omega))

/-- `quicksort` returns and sorts. -/
theorem quicksort_spec (lt : ℕ → ℕ → Bool) (ht : ∀ a b c, lt a b = true → lt b c = true → lt a c = true) (hi : ∀ a, lt a a = false) (fuel : ℕ) :
    ∀ (ns ne : ℤ) (o : ℤ → ℕ), ne - ns + 1 < fuel → 0 ≤ ns → 0 < fuel →
    ∃ o', quicksort lt fuel ns ne o = .ok o' ∧ PermOn ns ne o o' ∧ ∀ x y, ns ≤ x → x < y → y ≤ ne → lt (o' y) (o' x) = false := by
  induction fuel with
  | zero => intro ns ne o h h0 hf; omega
  | succ fuel ih =>
    intro ns ne o h h0 _
    unfold quicksort
    by_cases hle : ne ≤ ns
    · rw [if_pos hle]
      exact ⟨o, rfl, PermOn.refl _ _ _, fun x y a b c => by omega⟩
    · rw [if_neg hle]
      dsimp only
      have hp : ns ≤ (ns + ne + 1).tdiv 2 ∧ (ns + ne + 1).tdiv 2 ≤ ne := by
        rw [Int.tdiv_eq_ediv_of_nonneg (by omega)]; omega
      set pv := (ns + ne + 1).tdiv 2
      set o1 := Function.update (Function.update o pv (o ns)) ns (o pv) with ho
      have e1 : o1 = o ∘ Equiv.swap ns pv := by
        funext x
        simp only [ho, Function.comp, Function.update_apply, Equiv.swap_apply_def]
        split_ifs <;> rfl
      have hP : PermOn ns ne o o1 := by rw [e1]; exact PermOn.swap (by omega) hp o
      obtain ⟨a1, a2, a3, a4, a5, a6⟩ := partLoop_spec lt ns ne (ne - ns).toNat (ns + 1) ns o1 (o1 ns) (le_refl _) (by omega) (by omega) rfl
        (fun x h1 h2 => by omega) (fun x h1 h2 => by omega)
      set r := partLoop lt (ne - ns).toNat (ns + 1) ns o1
      obtain ⟨o2, e2, p2, s2⟩ := ih ns (r.1 - 1) r.2 (by omega) h0 (by omega)
      obtain ⟨o3, e3, p3, s3⟩ := ih (r.1 + 1) ne o2 (by omega) (by omega) (by omega)
      refine ⟨o3, by rw [e2]; exact e3, ((hP.trans a1).trans (p2.mono (le_refl _) (by omega))).trans (p3.mono (by omega) (le_refl _)), ?_⟩
      -- left of the pivot, the pivot, right of it
      have hL : ∀ x, ns ≤ x → x < r.1 → lt (o3 x) (o1 ns) = true := by
        intro x hx hx'
        rw [p3.out (by omega)]
        obtain ⟨y, hy, ey⟩ := p2.src (x := x) (by omega)
        rw [ey]
        exact a5 y hy.1 (by omega)
      have hM : o3 r.1 = o1 ns := by rw [p3.out (by omega), p2.out (by omega), a4]
      have hR : ∀ x, r.1 < x → x ≤ ne → lt (o3 x) (o1 ns) = false := by
        intro x hx hx'
        obtain ⟨y, hy, ey⟩ := p3.src (x := x) (by omega)
        rw [ey, p2.out (by omega)]
        exact a6 y (by omega) hy.2
      intro x y hx hxy hy
      rw [Bool.eq_false_iff]
      intro hlt
      by_cases g1 : y < r.1
      · have := s2 x y hx hxy (by omega)
        rw [← p3.out (x := x) (by omega), ← p3.out (x := y) (by omega), hlt] at this
        exact absurd this (by decide)
      · by_cases g2 : r.1 < x
        · have := s3 x y (by omega) hxy hy
          rw [hlt] at this
          exact absurd this (by decide)
        · by_cases g3 : x < r.1
          · by_cases g4 : y = r.1
            · rw [g4, hM] at hlt
              have := ht _ _ _ hlt (hL x hx g3)
              rw [hi] at this
              exact absurd this (by decide)
            · have := ht _ _ _ hlt (hL x hx g3)
              rw [hR y (by omega) hy] at this
              exact absurd this (by decide)
          · have ex : x = r.1 := by omega
            rw [ex, hM, hR y (by omega) hy] at hlt
            exact absurd hlt (by decide)

theorem range_perm {n : ℕ} {o : ℤ → ℕ} (h : PermOn 0 (n - 1) (fun p => p.toNat) o) : ((List.range n).map fun p => o (p : ℕ)).Perm (List.range n) := by
  obtain ⟨s, a, b⟩ := h
  have inr : ∀ x : ℤ, 0 ≤ x ∧ x ≤ n - 1 → 0 ≤ s x ∧ s x ≤ n - 1 := by
    intro x hx
    by_contra hc
    have := s.injective (a (s x) (by omega))
    omega
  have inv : ∀ x : ℤ, 0 ≤ x ∧ x ≤ n - 1 → 0 ≤ s.symm x ∧ s.symm x ≤ n - 1 := by
    intro x hx
    by_contra hc
    have := a (s.symm x) (by omega)
    rw [Equiv.apply_symm_apply] at this
    omega
  rw [List.perm_ext_iff_of_nodup ?_ List.nodup_range]
  · intro k
    rw [List.mem_map, List.mem_range]
    constructor
    · rintro ⟨p, hp, rfl⟩
      have hp := List.mem_range.1 hp
      have := inr p (by omega)
      rw [b]
      dsimp only
      omega
    · intro hk
      have := inv k (by omega)
      refine ⟨(s.symm k).toNat, List.mem_range.2 (by omega), ?_⟩
      rw [b, Int.toNat_of_nonneg this.1, Equiv.apply_symm_apply]
      simp
  · refine List.Nodup.map_on ?_ List.nodup_range
    intro x hx y hy e
    have hx := List.mem_range.1 hx
    have hy := List.mem_range.1 hy
    rw [b, b] at e
    dsimp only at e
    have h1 := inr x (by omega)
    have h2 := inr y (by omega)
    have := s.injective (show s x = s y by omega)
    omega

/-- Missing for the full property: a list of no particles (`sort_empty_false`).

**The sorted list.**  `sort_lis` returns for every list that is not empty; it writes the same particles, first by process of origin, then by number. -/
theorem sort_sorts_partial (fl : R → F) (P : Proc R) (l : List (Rec F)) (hne : l ≠ []) (hl : ∀ x ∈ l, x.data.length = 7) :
    ∃ l', sortLis (listFile fl P l) = .ok (listFile fl P l') ∧ l'.Perm l ∧ l'.Pairwise fun a b => ¬ Before b a := by
  have e := readRecs_write l hl []
  rw [List.append_nil] at e
  set dflt : Rec F := ⟨[], 0, 0, 0⟩
  set lt := less (fun k => (l.getD k dflt).cpuid) (fun k => (l.getD k dflt).pid) with hlt
  obtain ⟨o, eo, hP, hS⟩ := quicksort_spec lt (by
      intro a b c h1 h2
      simp only [hlt, less, decide_eq_true_eq] at h1 h2 ⊢
      omega) (by intro a; simp [hlt, less]) (l.length + 1) 0 ((l.length : ℤ) - 1) (fun p => p.toNat) (by push_cast; omega) (le_refl _) (by omega)
  have hperm := range_perm hP
  have hsel : (List.range l.length).map (fun k => l.getD k dflt) = l := by
    apply List.ext_getElem (by simp)
    intro k h1 h2
    simp [List.getD_eq_getElem?_getD, h2]
  refine ⟨(List.range l.length).map fun p => l.getD (o (p : ℕ)) dflt, ?_, ?_, ?_⟩
  · rw [listFile_eq, listFile_eq]
    unfold sortLis
    rw [headOf_read]
    show (if ((l.length : ℕ) : ℤ) ≤ 0 then _ else Res.bind (readRecs l.length (l.flatMap writeRec)) _) = _
    rw [if_neg (by have := List.length_pos_iff.2 hne; omega)]
    rw [e]
    show Res.bind (quicksort lt (l.length + 1) 0 ((l.length : ℤ) - 1) (fun p => p.toNat)) _ = _
    rw [eo]
    show Res.ok (writeHead (headOf fl P P.rmin P.rmax l.length) ++ (List.range l.length).flatMap fun (p : ℕ) => writeRec (l.getD (o p) dflt)) = _
    rw [List.length_map, List.length_range, List.flatMap_map]
  · have := hperm.map (fun k => l.getD k dflt)
    rw [hsel, List.map_map] at this
    exact this
  · rw [List.pairwise_map]
    rw [List.pairwise_iff_getElem]
    intro i j hi hj hij hb
    rw [List.getElem_range, List.getElem_range] at hb
    rw [List.length_range] at hi hj
    have := hS i j (by omega) (by omega) (by omega)
    rw [hlt, less, Bool.eq_false_iff] at this
    exact this (by simpa [Before] using hb)

/-- Without particles it does not. -/
theorem sort_empty_false (fl : R → F) (P : Proc R) : sortLis (listFile fl P []) = .ub := by
  rw [listFile_eq]
  unfold sortLis
  rw [headOf_read]
  rfl

/-- A sorted list of particles with distinct names is determined by its particles. -/
theorem sorted_unique {l l' : List (Rec F)} (h : l.Perm l') (hs : l.Pairwise fun a b => ¬ Before b a) (hs' : l'.Pairwise fun a b => ¬ Before b a)
    (hd : ∀ a ∈ l, ∀ b ∈ l, a.cpuid = b.cpuid → a.pid = b.pid → a = b) : l = l' := by
  refine List.Perm.eq_of_pairwise ?_ hs hs' h
  intro a b ha hb h1 h2
  apply hd a ha b (h.mem_iff.2 hb)
  · unfold Before at h1 h2; omega
  · unfold Before at h1 h2; omega

/-- Missing for the full property: a list of no particles (`sort_empty_false`).

**Particle lists do not depend on the decomposition.**  Two runs on `n + 1` and `n' + 1` processes, whatever Grids these have, with the same particles
altogether, each known by its process of origin and its number: after `join_lis` and `sort_lis` the files are the same, and hold the particles
selected, each once, in order. -/
theorem lists_agree_partial (fl : R → F) (sel : Grain R → Bool) {fs fs' : Str → Option (List (Word F))} {base base' post post' : Str} {num num' : ℕ}
    {n n' : ℕ} {Ps Qs : ℕ → Proc R}
    (hr : ∀ p < n + 1, (Ps p).rad = (Ps 0).rad) (hr' : ∀ p < n' + 1, (Qs p).rad = (Qs 0).rad)
    (h : ∀ p < n + 1, (inName base num post p).length < 100 ∧ fs (inName base num post p) = some (dump fl sel (Ps p)))
    (h' : ∀ p < n' + 1, (inName base' num' post' p).length < 100 ∧ fs' (inName base' num' post' p) = some (dump fl sel (Qs p)))
    (same : (Ps 0).rmin = (Qs 0).rmin ∧ (Ps 0).rmax = (Qs 0).rmax ∧ (Ps 0).rad = (Qs 0).rad ∧ (Ps 0).time = (Qs 0).time ∧ (Ps 0).dt = (Qs 0).dt)
    (gas : ((List.range (n + 1)).flatMap fun p => (Ps p).particle).Perm ((List.range (n' + 1)).flatMap fun p => (Qs p).particle))
    (some_sel : ∃ p < n + 1, ∃ g ∈ (Ps p).particle, sel g = true)
    (names : ((List.range (n + 1)).flatMap fun p => (Ps p).particle).Pairwise fun a b => a.init_id = b.init_id → a.my_id ≠ b.my_id) :
    ∃ f l, (join fs base num post (n + 1)).bind sortLis = .ok f ∧ (join fs' base' num' post' (n' + 1)).bind sortLis = .ok f ∧ f = listFile fl (Ps 0) l ∧
      l.Perm (keep fl sel ((List.range (n + 1)).flatMap fun p => (Ps p).particle)) ∧ l.Pairwise Before := by
  have hk : ∀ (m : ℕ) (Xs : ℕ → Proc R), ((List.range m).flatMap fun p => keep fl sel (Xs p).particle) = keep fl sel ((List.range m).flatMap fun p => (Xs p).particle) := by
    intro m Xs
    unfold keep
    induction List.range m with
    | nil => rfl
    | cons a l ih => rw [List.flatMap_cons, List.flatMap_cons, List.filter_append, List.map_append, ih]
  set A := (List.range (n + 1)).flatMap fun p => (Ps p).particle with hA
  set B := (List.range (n' + 1)).flatMap fun p => (Qs p).particle
  have eP := join_all (Ps := Ps) (fl := fl) (sel := sel) n hr h
  have eQ := join_all (Ps := Qs) (fl := fl) (sel := sel) n' hr' h'
  rw [hk] at eP eQ
  have pAB : (keep fl sel A).Perm (keep fl sel B) := (gas.filter _).map _
  have neA : keep fl sel A ≠ [] := by
    obtain ⟨p, hp, g, hg, hs⟩ := some_sel
    have : g ∈ A.filter sel := List.mem_filter.2 ⟨List.mem_flatMap.2 ⟨p, List.mem_range.2 hp, hg⟩, hs⟩
    intro hc
    unfold keep at hc
    rw [List.map_eq_nil_iff.1 hc] at this
    exact absurd this (List.not_mem_nil)
  have neB : keep fl sel B ≠ [] := fun hc => neA (by rw [hc] at pAB; exact pAB.eq_nil)
  obtain ⟨l, e, pl, sl⟩ := sort_sorts_partial fl (Ps 0) (keep fl sel A) neA (keep_len fl sel _)
  obtain ⟨l', e', pl', sl'⟩ := sort_sorts_partial fl (Qs 0) (keep fl sel B) neB (keep_len fl sel _)
  -- the names of the particles that are written
  have nd : (keep fl sel A).Pairwise fun a b => a.cpuid = b.cpuid → a.pid ≠ b.pid := by
    unfold keep
    rw [List.pairwise_map]
    exact (names.filter sel).imp fun h => h
  have nd' : l.Pairwise fun a b => a.cpuid = b.cpuid → a.pid ≠ b.pid := by
    refine pl.symm.pairwise nd ?_
    intro a b hab e1 e2
    exact hab e1.symm e2.symm
  have hd : ∀ a ∈ l, ∀ b ∈ l, a.cpuid = b.cpuid → a.pid = b.pid → a = b := by
    intro a ha b hb e1 e2
    by_contra hne
    haveI : Std.Symm (fun a b : Rec F => a.cpuid = b.cpuid → a.pid ≠ b.pid) := ⟨fun a b hab e1 e2 => hab e1.symm e2.symm⟩
    exact (nd'.forall ha hb hne) e1 e2
  have ell : l = l' := sorted_unique ((pl.trans pAB).trans pl'.symm) sl sl' hd
  have eF : listFile fl (Ps 0) l = listFile fl (Qs 0) l' := by
    unfold listFile
    rw [same.1, same.2.1, same.2.2.1, same.2.2.2.1, same.2.2.2.2, ell]
  refine ⟨listFile fl (Ps 0) l, l, by rw [eP]; exact e, by rw [eQ, eF]; exact e', rfl, pl, ?_⟩
  refine (sl.and nd').imp ?_
  rintro a b ⟨h1, h2⟩
  unfold Before at h1 ⊢
  omega

/-! ## A case -/

/-- Particle `k` of process `c`. -/
def g0 (c k : ℤ) : Grain ℤ := ⟨k, c, 0, 1, 2, 3, 5, 0, k, c, 1⟩
/-- A process with these particles. -/
def p0 (l : List (Grain ℤ)) : Proc ℤ := ⟨fun _ => 0, fun _ => 1, fun _ => 0, fun _ => 2, [7], 3, 1, l⟩
/-- Three processes. -/
def P3 (p : ℕ) : Proc ℤ := p0 (if p = 0 then [g0 1 4, g0 0 2] else if p = 1 then [] else [g0 0 1])
/-- Two processes. -/
def P2 (p : ℕ) : Proc ℤ := p0 (if p = 0 then [g0 0 1] else [g0 0 2, g0 1 4])
/-- Their files. -/
def fs0 (Ps : ℕ → Proc ℤ) (s : Str) : Option (List (Word ℤ)) :=
  if s = inName "Par".toList 1 "all".toList 0 then some (dump id (fun _ => true) (Ps 0))
  else if s = inName "Par".toList 1 "all".toList 1 then some (dump id (fun _ => true) (Ps 1))
  else some (dump id (fun _ => true) (Ps 2))

/-- Non-vacuity: three particles on three processes, and on two. -/
example : ∃ f l, (join (fs0 P3) "Par".toList 1 "all".toList 3).bind sortLis = .ok f ∧ (join (fs0 P2) "Par".toList 1 "all".toList 2).bind sortLis = .ok f ∧
    f = listFile id (P3 0) l ∧ l.Perm (keep id (fun _ => true) ((List.range 3).flatMap fun p => (P3 p).particle)) ∧ l.Pairwise Before := by
  have n01 : inName "Par".toList 1 "all".toList 1 ≠ inName "Par".toList 1 "all".toList 0 := by decide +kernel
  have n02 : inName "Par".toList 1 "all".toList 2 ≠ inName "Par".toList 1 "all".toList 0 := by decide +kernel
  have n12 : inName "Par".toList 1 "all".toList 2 ≠ inName "Par".toList 1 "all".toList 1 := by decide +kernel
  have hl : ∀ p < 3, (inName "Par".toList 1 "all".toList p).length < 100 := by decide +kernel
  have hf : ∀ Ps : ℕ → Proc ℤ, ∀ p < 3, fs0 Ps (inName "Par".toList 1 "all".toList p) = some (dump id (fun _ => true) (Ps p)) := by
    intro Ps p hp
    unfold fs0
    obtain rfl | rfl | rfl : p = 0 ∨ p = 1 ∨ p = 2 := by omega
    · rw [if_pos rfl]
    · rw [if_neg n01, if_pos rfl]
    · rw [if_neg n02, if_neg n12]
  refine lists_agree_partial (n := 2) (n' := 1) (Ps := P3) (Qs := P2) id (fun _ => true) (fun _ _ => rfl) (fun _ _ => rfl) (fun p hp => ⟨hl p hp, hf P3 p hp⟩)
    (fun p hp => ⟨hl p (by omega), hf P2 p (by omega)⟩) ⟨rfl, rfl, rfl, rfl, rfl⟩ ?_ ⟨0, by omega, g0 1 4, by simp [P3, p0], rfl⟩ ?_
  · show [g0 1 4, g0 0 2, g0 0 1].Perm [g0 0 1, g0 0 2, g0 1 4]
    exact (List.reverse_perm [g0 0 1, g0 0 2, g0 1 4])
  · show [g0 1 4, g0 0 2, g0 0 1].Pairwise _
    simp [g0]

end Athena.Lis
