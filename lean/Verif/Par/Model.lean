import Verif.Base

/-!
# src/par.c: the parameter database

C strings are lists of characters.  A text buffer is a list of characters that contains its
terminating NUL; pointers into it are indices, and the in-place patching done by the C code (writing
NULs into the line) is modelled by `List.set`.  Reading before the start of a buffer, or past its end,
is the outcome `Res.ub`.

Simplifications: `isspace` is that of the C locale for ASCII; memory allocation does not fail; the
`debug` output is not modelled; NULL block and parameter names (a fatal error) are not representable.
-/

namespace Athena.Par

abbrev Str := List Char

def NUL : Char := Char.ofNat 0

/-- `isspace` in the C locale: blank, `\t \n \v \f \r`. -/
def isSpace (c : Char) : Bool := c.toNat = 32 || (9 ≤ c.toNat && c.toNat ≤ 13)

/-- `MAXLEN`, src/defs.h.in:138. -/
def MAXLEN : Nat := 256

/-- `struct Par`, src/par.c:91-96. -/
structure Par where
  name : Str
  value : Str
  comment : Option Str
deriving DecidableEq, Repr

/-- `struct Block`, src/par.c:100-106. -/
structure Block where
  name : Str
  pars : List Par
  maxName : Nat
  maxValue : Nat
deriving DecidableEq, Repr

/-- The list of blocks starting at `base_block`. -/
abbrev DB := List Block

/-! ## Strings inside a buffer -/

/-- The C string starting at index `p` of buffer `b`. -/
def cstr (b : Str) (p : Nat) : Str := (b.drop p).takeWhile (· ≠ NUL)

/-- `skipwhite`, src/par.c:564-569 (NUL is not white space, so the scan stops inside the buffer). -/
def skipWhite (b : Str) (p : Nat) : Nat := p + ((b.drop p).takeWhile isSpace).length

/-- `do { cp--; } while (isspace(*cp));` src/par.c:580-582.  Result: the index where it stops. -/
def backWhite (b : Str) : Nat → Res Nat
  | 0 => .ub
  | p+1 =>
    match b[p]? with
    | none => .ub
    | some c => if isSpace c then backWhite b p else .ok p

/-- `str_term`, src/par.c:578-587. -/
def strTerm (b : Str) (p : Nat) : Res Str := do
  let q ← backWhite b p
  return b.set (q+1) NUL

/-- `line_block_name`, src/par.c:595-608, for the buffer `b` and `line` at index `p`. -/
def lineBlockName (b : Str) (p : Nat) : Res Str :=
  let sp := skipWhite b (p+1)
  let cp := sp + ((b.drop sp).takeWhile (fun c => c ≠ NUL ∧ c ≠ '>')).length
  match b[cp]? with
  | none => .ub
  | some c =>
    if c ≠ '>' then .fatal
    else do
      let b ← strTerm b cp
      return cstr b sp

/-- The loop src/par.c:679-691: positions of the first `=` (before any `#`) and of the first `#`.
`i` is the index of the head of the list, `equal` the position found so far. -/
def scanLine : Str → Nat → Option Nat → Option Nat × Option Nat
  | [], _, equal => (equal, none)
  | c :: s, i, equal =>
    if c = NUL then (equal, none)
    else
      let equal := if c = '=' ∧ equal = none then some i else equal
      if c = '#' then (equal, some i) else scanLine s (i+1) equal

/-- The parsing part of `add_par_line`, src/par.c:677-711, for the buffer `b` and `line` at index `p`:
name, value and comment passed to `add_par`. -/
def parseLine (b : Str) (p : Nat) : Res (Str × Str × Option Str) :=
  let name := skipWhite b p
  let sc := scanLine (b.drop name) name none
  let nul := name + (cstr b name).length
  match sc.1 with
  | none => .fatal
  | some equal =>
    let value := skipWhite b (equal+1)
    match sc.2 with
    | none => do
      let b ← strTerm b equal
      let b ← strTerm b nul
      return (cstr b name, cstr b value, none)
    | some hash => do
      let comment := skipWhite b (hash+1)
      let b ← strTerm b equal
      let b ← strTerm b hash
      match b[comment]? with
      | none => .ub
      | some c =>
        if c = NUL then return (cstr b name, cstr b value, none)
        else do
          let b ← strTerm b nul
          return (cstr b name, cstr b value, some (cstr b comment))

/-! ## The list of blocks -/

/-- `find_block`, src/par.c:745-755. -/
def findBlock (db : DB) (name : Str) : Option Block := db.find? (fun b => b.name = name)

/-- `find_par`, src/par.c:761-771. -/
def findPar (bp : Block) (name : Str) : Option Par := bp.pars.find? (fun p => p.name = name)

/-- The loop of `add_block`, src/par.c:727-729: index of the block, if any. -/
def blockIndex : DB → Str → Option Nat
  | [], _ => none
  | b :: db, name => if b.name = name then some 0 else (blockIndex db name).map (· + 1)

/-- `add_block`, src/par.c:720-739: the new list and the index of the block. -/
def addBlock (db : DB) (name : Str) : DB × Nat :=
  match blockIndex db name with
  | some i => (db, i)
  | none => (db ++ [⟨name, [], 0, 0⟩], db.length)

/-- The loop and the append of `add_par`, src/par.c:639-660. -/
def addParList : List Par → Str → Str → Option Str → List Par
  | [], name, value, comment => [⟨name, value, comment⟩]
  | pp :: ps, name, value, comment =>
    if pp.name = name then
      { pp with value := value, comment := match comment with | none => pp.comment | some c => some c } :: ps
    else pp :: addParList ps name value comment

/-- `add_par`, src/par.c:619-661. -/
def addPar (bp : Block) (name value : Str) (comment : Option Str) : Block :=
  { bp with
    maxName := if name.length > bp.maxName then name.length else bp.maxName
    maxValue := if value.length > bp.maxValue then value.length else bp.maxValue
    pars := addParList bp.pars name value comment }

/-- `par_sets`, src/par.c:335-341.  (`par_seti`, `par_setd`, src/par.c:348-371, do the same with the
string made by `sprintf`.) -/
def parSets (db : DB) (block name value : Str) (comment : Option Str) : DB :=
  let r := addBlock db block
  r.1.modify r.2 (addPar · name value comment)

/-- `par_exist`, src/par.c:239-251 (parameter file open). -/
def parExist (db : DB) (block name : Str) : Bool :=
  match findBlock db block with
  | none => false
  | some bp => (findPar bp name).isSome

/-- `par_getsl`/`par_gets`, src/par.c:257-261, 806-820 (parameter file open). -/
def parGets (db : DB) (block name : Str) : Res Str :=
  match findBlock db block with
  | none => .fatal
  | some bp =>
    match findPar bp name with
    | none => .fatal
    | some pp => .ok pp.value

/-- The comment used for defaults, src/par.c:295, 311, 327. -/
def defaultValue : Str := "Default Value".toList

/-- `par_gets_def`, src/par.c:288-297: the string returned and the new database. -/
def parGetsDef (db : DB) (block name defv : Str) : Res (Str × DB) :=
  if parExist db block name then do
    let v ← parGets db block name
    return (v, db)
  else .ok (defv, parSets db block name defv (some defaultValue))

/-! ### Integers -/

/-- Value of a run of decimal digits (the loop of `atoi`); stops at the first other character.
Overflow of `int` (undefined in C) is not modelled: values are unbounded. -/
def digitsVal : Str → Nat → Nat
  | [], acc => acc
  | c :: s, acc => if c.isDigit then digitsVal s (acc * 10 + (c.toNat - 48)) else acc

/-- `atoi` of the C library. -/
def atoi (s : Str) : Int :=
  match s.dropWhile isSpace with
  | '-' :: t => - (digitsVal t 0 : Int)
  | '+' :: t => digitsVal t 0
  | t => digitsVal t 0

/-- `sprintf(sval,"%d",ival)`. -/
def fmtInt (n : Int) : Str :=
  match n with
  | .ofNat k => (Nat.toDigits 10 k)
  | .negSucc k => '-' :: Nat.toDigits 10 (k+1)

/-- `par_seti` with the format `"%d"`, src/par.c:348-356. -/
def parSeti (db : DB) (block name : Str) (v : Int) (comment : Option Str) : DB :=
  parSets db block name (fmtInt v) comment

/-- `par_geti`, src/par.c:267-271. -/
def parGeti (db : DB) (block name : Str) : Res Int := do
  let s ← parGets db block name
  return atoi s

/-- `par_geti_def`, src/par.c:304-313. -/
def parGetiDef (db : DB) (block name : Str) (defv : Int) : Res (Int × DB) :=
  if parExist db block name then do
    let v ← parGets db block name
    return (atoi v, db)
  else .ok (defv, parSeti db block name defv (some defaultValue))

/-! ## Reading a file -/

/-- The lines delivered by successive `fgets(line,MAXLEN,fp)` (src/par.c:173): up to and including the
newline, or `MAXLEN-1` characters.  `k` is the room left in the current line `cur`. -/
def fgetsLines : Nat → Str → Str → List Str
  | _, cur, [] => if cur = [] then [] else [cur]
  | k, cur, c :: s =>
    if c = '\n' ∨ k ≤ 1 then (cur ++ [c]) :: fgetsLines (MAXLEN - 1) [] s
    else fgetsLines (k-1) (cur ++ [c]) s

/-- Body of the loop of `par_open`, src/par.c:173-184; `bp` is the index of the current block. -/
def openLines : List Str → DB → Option Nat → Res DB
  | [], db, _ => .ok db
  | line :: rest, db, bp =>
    let b := line ++ [NUL]
    let cp := skipWhite b 0
    match b[cp]? with
    | none => .ub
    | some c =>
      if c = NUL then openLines rest db bp
      else if c = '#' then openLines rest db bp
      else if "<par_end>".toList.isPrefixOf (b.drop cp) then .ok db
      else if c = '<' then do
        let name ← lineBlockName b cp
        let r := addBlock db name
        openLines rest r.1 (some r.2)
      else
        match bp with
        | none => .fatal
        | some i => do
          let l ← parseLine b cp
          openLines rest (db.modify i (addPar · l.1 l.2.1 l.2.2)) bp

/-- `par_open`, src/par.c:156-187, on the contents of the file; `db` is the database before the call
(empty at start-up). -/
def parOpen (file : Str) (db : DB) : Res DB := openLines (fgetsLines (MAXLEN - 1) [] file) db none

/-! ## Writing a file -/

/-- `%-Ns`. -/
def padRight (n : Nat) (s : Str) : Str := s ++ List.replicate (n - s.length) ' '

/-- One parameter in modes 0 and 2, src/par.c:398-400. -/
def dumpPar (bp : Block) (pp : Par) : Str :=
  padRight bp.maxName pp.name ++ " = ".toList ++ padRight bp.maxValue pp.value ++
    (match pp.comment with
     | none => ['\n']
     | some c => " # ".toList ++ c ++ ['\n'])

/-- One block in modes 0 and 2, src/par.c:389-403. -/
def dumpBlock (bp : Block) : Str :=
  '<' :: bp.name ++ ['>', '\n'] ++ bp.pars.flatMap (dumpPar bp) ++ ['\n']

/-- `par_dump(mode,fp)` for modes 0 and 2, src/par.c:377-412. -/
def parDump (mode : Nat) (db : DB) : Str :=
  (if mode ≠ 2 then "# --------------------- PAR_DUMP -----------------------\n\n".toList else []) ++
  db.flatMap dumpBlock ++
  (if mode = 2 then "<par_end>\n".toList
   else "# --------------------- PAR_DUMP -------------------------\n".toList)

/-! ## Command line -/

/-- `strchr` split: the text before the first `c` and the text after it. -/
def splitAtChar (c : Char) : Str → Option (Str × Str)
  | [] => none
  | d :: s => if d = c then some ([], s) else (splitAtChar c s).map (fun r => (d :: r.1, r.2))

/-- Replace the value of the first parameter called `name` (src/par.c:221-224). -/
def setValue : List Par → Str → Str → List Par
  | [], _, _ => []
  | pp :: ps, name, value =>
    if pp.name = name then { pp with value := value } :: ps else pp :: setValue ps name value

/-- One argument of `par_cmdline`, src/par.c:205-231. -/
def cmdArg (db : DB) (arg : Str) : Res DB :=
  match splitAtChar '/' arg with
  | none => .ok db
  | some (block, t) =>
    match splitAtChar '=' t with
    | none => .ok db
    | some (name, value) =>
      match blockIndex db block with
      | none => .fatal
      | some i =>
        match findBlock db block with
        | none => .fatal
        | some bp =>
          match findPar bp name with
          | none => .fatal
          | some _ =>
            .ok (db.modify i (fun bp => { bp with
              pars := setValue bp.pars name value
              maxValue := if value.length > bp.maxValue then value.length else bp.maxValue }))

/-- `par_cmdline`, src/par.c:194-233 (arguments 1..argc-1). -/
def parCmdline : DB → List Str → Res DB
  | db, [] => .ok db
  | db, a :: as => do
    let db ← cmdArg db a
    parCmdline db as

/-! ## MPI distribution -/

/-- A broadcast: an integer or a character array (with its NUL). -/
inductive Bcast where
  | count (n : Int)
  | chars (s : Str)
deriving DecidableEq, Repr

/-- `sprintf(line,…)` into `line[MAXLEN]` followed by the two broadcasts, src/par.c:459-466, 470-480. -/
def sendLine (s : Str) : Res (List Bcast) :=
  if s.length + 1 > MAXLEN then .ub else .ok [.count (s.length + 1), .chars (s ++ [NUL])]

/-- The line sent for a parameter, src/par.c:470-473. -/
def distPar (pp : Par) : Str :=
  pp.name ++ " = ".toList ++ pp.value ++
    (match pp.comment with
     | none => []
     | some c => " # ".toList ++ c)

/-- All the lines sent, in order, src/par.c:457-482. -/
def distLines (db : DB) : List Str :=
  db.flatMap (fun bp => ('<' :: bp.name ++ ['>']) :: bp.pars.map distPar)

def sendLines : List Str → Res (List Bcast)
  | [] => .ok []
  | l :: ls => do
    let a ← sendLine l
    let b ← sendLines ls
    return a ++ b

/-- The broadcasts of rank 0, src/par.c:449-486. -/
def distSend (filename : Str) (db : DB) : Res (List Bcast) := do
  let m ← sendLines (distLines db)
  return [.count (filename.length + 1), .chars (filename ++ [NUL])] ++ m ++ [.count (-1)]

/-- A child's treatment of one line, src/par.c:512-517. -/
def recvLine (s : Str) (db : DB) (bp : Option Nat) : Res (DB × Option Nat) :=
  if s.head? = some '<' then do
    let name ← lineBlockName s 0
    let r := addBlock db name
    return (r.1, some r.2)
  else
    match bp with
    | none => .fatal
    | some i => do
      let l ← parseLine s 0
      return (db.modify i (addPar · l.1 l.2.1 l.2.2), bp)

/-- The loop of a child, src/par.c:506-521.  A receive that does not match the broadcast of the root
is `ub`; so is a message longer than `line[MAXLEN]`. -/
def distRecvLoop : List Bcast → DB → Option Nat → Res DB
  | [], _, _ => .ub
  | .chars _ :: _, _, _ => .ub
  | .count n :: rest, db, bp =>
    if n > 0 then
      match rest with
      | .chars s :: rest =>
        if n ≠ s.length ∨ s.length > MAXLEN then .ub
        else do
          let r ← recvLine s db bp
          distRecvLoop rest r.1 r.2
      | _ => .ub
    else .ok db

/-- A child, src/par.c:490-525: the file name, then the loop. -/
def distRecv : List Bcast → Res (Str × DB)
  | .count n :: .chars s :: rest =>
    if n ≠ s.length ∨ s.length > MAXLEN then .ub
    else do
      let db ← distRecvLoop rest [] none
      return (cstr s 0, db)
  | _ => .ub

end Athena.Par
