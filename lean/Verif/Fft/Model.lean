import Mathlib.Data.List.Basic
import Mathlib.Data.List.GetD
import Mathlib.Data.Int.Basic
import Mathlib.Algebra.Order.Ring.Int

/-!
# Redistribution of a block-decomposed array: src/fftsrc/pack_3d.c, remap_3d.c

A three-dimensional data set of elements, each of `nqty` numbers, is spread over processes in boxes; `remap_3d` moves it to another set of
boxes and on request permutes the storage order.  The version of pack_3d.c that is compiled by default (`PACK_ARRAY`) is modelled.
Memory is a function from addresses (in units of one number) to values; `malloc` does not fail; `int` does not overflow;
`precision` is 2, the only value that is supported (remap_3d.c:160-165).
-/

namespace Athena.Fft

/-- An array of numbers, by address relative to its start. -/
abbrev Mem (D : Type _) := ℤ → D

/-- `struct extent_3d`, remap_3d.h; the sizes are `hi - lo + 1` wherever the code sets them (remap_3d.c:174-196, 512-514). -/
structure Ext where
  ilo : ℤ
  ihi : ℤ
  jlo : ℤ
  jhi : ℤ
  klo : ℤ
  khi : ℤ
  deriving DecidableEq, Repr

/-- `isize`, remap_3d.c:176, 188, 512. -/
def Ext.isize (e : Ext) : ℤ := e.ihi - e.ilo + 1
/-- `jsize`, remap_3d.c:180, 192, 513. -/
def Ext.jsize (e : Ext) : ℤ := e.jhi - e.jlo + 1
/-- `ksize`, remap_3d.c:184, 196, 514. -/
def Ext.ksize (e : Ext) : ℤ := e.khi - e.klo + 1

/-- `remap_3d_collide`, remap_3d.c:497-517: the overlap, if there is one. -/
def collide (a b : Ext) : Option Ext :=
  let o : Ext := ⟨max a.ilo b.ilo, min a.ihi b.ihi, max a.jlo b.jlo, min a.jhi b.jhi, max a.klo b.klo, min a.khi b.khi⟩
  if o.ilo > o.ihi ∨ o.jlo > o.jhi ∨ o.klo > o.khi then none else some o

/-- `struct pack_plan_3d`, pack_3d.h. -/
structure Pack where
  nfast : ℤ
  nmid : ℤ
  nslow : ℤ
  line : ℤ
  plane : ℤ
  nqty : ℤ

/-- The addresses `pack_3d` reads, in the order in which it writes their values to `buf[0], buf[1], ...`: pack_3d.c:55-63; and those
`unpack_3d` writes, in the order in which it reads `buf[0], buf[1], ...`: pack_3d.c:81-89. -/
def packAddr (p : Pack) : List ℤ :=
  (List.range p.nslow.toNat).flatMap fun (slow : ℕ) => (List.range p.nmid.toNat).flatMap fun (mid : ℕ) =>
    (List.range p.nfast.toNat).map fun (fast : ℕ) => slow * p.plane + mid * p.line + fast

/-- The addresses `unpack_3d_permute1_1` writes, pack_3d.c:107-115. -/
def addr11 (p : Pack) : List ℤ :=
  (List.range p.nslow.toNat).flatMap fun (slow : ℕ) => (List.range p.nmid.toNat).flatMap fun (mid : ℕ) =>
    (List.range p.nfast.toNat).map fun (fast : ℕ) => slow * p.line + mid + fast * p.plane

/-- The addresses `unpack_3d_permute1_2` writes, pack_3d.c:133-143. -/
def addr12 (p : Pack) : List ℤ :=
  (List.range p.nslow.toNat).flatMap fun (slow : ℕ) => (List.range p.nmid.toNat).flatMap fun (mid : ℕ) =>
    (List.range p.nfast.toNat).flatMap fun (fast : ℕ) => [slow * p.line + 2 * mid + fast * p.plane, slow * p.line + 2 * mid + fast * p.plane + 1]

/-- The addresses `unpack_3d_permute1_n` writes, pack_3d.c:162-172. -/
def addr1n (p : Pack) : List ℤ :=
  (List.range p.nslow.toNat).flatMap fun (slow : ℕ) => (List.range p.nmid.toNat).flatMap fun (mid : ℕ) =>
    (List.range p.nfast.toNat).flatMap fun (fast : ℕ) => (List.range p.nqty.toNat).map fun (iqty : ℕ) =>
      slow * p.line + p.nqty * mid + fast * p.plane + iqty

/-- The addresses `unpack_3d_permute2_1` writes, pack_3d.c:190-197. -/
def addr21 (p : Pack) : List ℤ :=
  (List.range p.nslow.toNat).flatMap fun (slow : ℕ) => (List.range p.nmid.toNat).flatMap fun (mid : ℕ) =>
    (List.range p.nfast.toNat).map fun (fast : ℕ) => slow + mid * p.plane + fast * p.line

/-- The addresses `unpack_3d_permute2_2` writes, pack_3d.c:215-224. -/
def addr22 (p : Pack) : List ℤ :=
  (List.range p.nslow.toNat).flatMap fun (slow : ℕ) => (List.range p.nmid.toNat).flatMap fun (mid : ℕ) =>
    (List.range p.nfast.toNat).flatMap fun (fast : ℕ) => [2 * slow + mid * p.plane + fast * p.line, 2 * slow + mid * p.plane + fast * p.line + 1]

/-- The addresses `unpack_3d_permute2_n` writes, pack_3d.c:243-252. -/
def addr2n (p : Pack) : List ℤ :=
  (List.range p.nslow.toNat).flatMap fun (slow : ℕ) => (List.range p.nmid.toNat).flatMap fun (mid : ℕ) =>
    (List.range p.nfast.toNat).flatMap fun (fast : ℕ) => (List.range p.nqty.toNat).map fun (iqty : ℕ) =>
      p.nqty * slow + mid * p.plane + fast * p.line + iqty

/-- Which `unpack` the plan uses, remap_3d.c:302-321; `permute` is 0, 1 or 2. -/
def unpackAddr (perm nqty : ℕ) (p : Pack) : List ℤ :=
  if perm = 0 then packAddr p
  else if perm = 1 then (if nqty = 1 then addr11 p else if nqty = 2 then addr12 p else addr1n p)
  else (if nqty = 1 then addr21 p else if nqty = 2 then addr22 p else addr2n p)

variable {D : Type _}

/-- `plan->pack(&data[off], buf, p)`: what is put into `buf`, pack_3d.c:43-64. -/
def pack (data : Mem D) (off : ℤ) (p : Pack) : List D := (packAddr p).map fun a => data (off + a)

/-- Values put into consecutive places from `loc` on. -/
def store (m : Mem D) (loc : ℤ) (buf : List D) : Mem D := fun a =>
  if loc ≤ a then (buf[(a - loc).toNat]?).getD (m a) else m a

/-- One assignment. -/
def put (m : Mem D) (a : ℤ) (v : D) : Mem D := fun b => if b = a then v else m b

/-- `unpack(&buf[loc], &data[off], p)` for the addresses `as`: pack_3d.c:69-90 and the like. -/
def unpack (buf : Mem D) (loc : ℤ) (data : Mem D) (off : ℤ) (as : List ℤ) : Mem D :=
  as.zipIdx.foldl (fun d x => put d (off + x.1) (buf (loc + x.2))) data

/-- One entry of `send_proc, send_offset, packplan, send_size`. -/
structure SendRec where
  proc : ℕ
  off : ℤ
  pk : Pack
  size : ℤ

/-- One entry of `recv_proc, recv_bufloc, recv_offset, unpackplan, recv_size`. -/
structure RecvRec where
  proc : ℕ
  bufloc : ℤ
  off : ℤ
  pk : Pack
  size : ℤ

/-- The values of `iproc` in the loops over the processes, remap_3d.c:209-212, 237-240, 272-275, 340-344: from `me + 1` round to `me`. -/
def ring (P me : ℕ) : List ℕ := (List.range P).map fun i => (me + 1 + i) % P

/-- remap_3d.c:242-252. -/
def send1 (nqty : ℕ) (e : Ext) (p : ℕ) (o : Ext) : SendRec where
  proc := p
  off := nqty * ((o.klo - e.klo) * e.jsize * e.isize + ((o.jlo - e.jlo) * e.isize + o.ilo - e.ilo))
  pk :=
    { nfast := nqty * o.isize
      nmid := o.jsize
      nslow := o.ksize
      line := nqty * e.isize
      plane := nqty * e.jsize * e.isize
      nqty := nqty }
  size := nqty * o.isize * o.jsize * o.ksize

/-- remap_3d.c:206-255: the sends of process `me`, itself included. -/
def sends (nqty P : ℕ) (ins outs : ℕ → Ext) (me : ℕ) : List SendRec :=
  (ring P me).filterMap fun p => (collide (ins me) (outs p)).map (send1 nqty (ins me) p)

/-- remap_3d.c:346-383. -/
def recv1 (nqty perm : ℕ) (e : Ext) (ibuf : ℤ) (p : ℕ) (o : Ext) : RecvRec where
  proc := p
  bufloc := ibuf
  off :=
    if perm = 0 then nqty * ((o.klo - e.klo) * e.jsize * e.isize + (o.jlo - e.jlo) * e.isize + (o.ilo - e.ilo))
    else if perm = 1 then nqty * ((o.ilo - e.ilo) * e.ksize * e.jsize + (o.klo - e.klo) * e.jsize + (o.jlo - e.jlo))
    else nqty * ((o.jlo - e.jlo) * e.isize * e.ksize + (o.ilo - e.ilo) * e.ksize + (o.klo - e.klo))
  pk :=
    if perm = 0 then
      { nfast := nqty * o.isize
        nmid := o.jsize
        nslow := o.ksize
        line := nqty * e.isize
        plane := nqty * e.jsize * e.isize
        nqty := nqty }
    else if perm = 1 then
      { nfast := o.isize
        nmid := o.jsize
        nslow := o.ksize
        line := nqty * e.jsize
        plane := nqty * e.ksize * e.jsize
        nqty := nqty }
    else
      { nfast := o.isize
        nmid := o.jsize
        nslow := o.ksize
        line := nqty * e.ksize
        plane := nqty * e.isize * e.ksize
        nqty := nqty }
  size := nqty * o.isize * o.jsize * o.ksize

/-- remap_3d.c:342-387, the rest of the loop when `ibuf` numbers have been given out. -/
def recvGo (nqty perm : ℕ) (e : Ext) (ins : ℕ → Ext) : ℤ → List ℕ → List RecvRec
  | _, [] => []
  | ibuf, p :: ps =>
    match collide e (ins p) with
    | none => recvGo nqty perm e ins ibuf ps
    | some o => recv1 nqty perm e ibuf p o :: recvGo nqty perm e ins (ibuf + (recv1 nqty perm e ibuf p o).size) ps

/-- remap_3d.c:336-387: the receives of process `me`, itself included. -/
def recvs (nqty perm P : ℕ) (ins outs : ℕ → Ext) (me : ℕ) : List RecvRec := recvGo nqty perm (outs me) ins 0 (ring P me)

/-- The entries before the last if the last is for `me`, otherwise all: the first `plan->nsend` or `plan->nrecv` entries,
remap_3d.c:257-262, 389-394. -/
def others {α : Type _} (proc : α → ℕ) (me : ℕ) (l : List α) : List α :=
  match l.getLast? with
  | some x => if proc x = me then l.dropLast else l
  | none => l

/-- The messages process `q` sends to process `me`, remap_3d.c:87-92, in order: the contents of `sendbuf` when it is sent. -/
def messages (nqty P : ℕ) (ins outs : ℕ → Ext) (data : ℕ → Mem D) (q me : ℕ) : List (List D) :=
  ((others SendRec.proc q (sends nqty P ins outs q)).filter fun s => s.proc = me).map fun s => pack (data q) s.off s.pk

/-- `scratch` of process `me` when all its receives are complete, remap_3d.c:80-83: one message is taken from each sender.  That there is
exactly one, of the length `recv_size`, is proved (`messages_match`).  Places are given out without overlap (`recvs_apart`), so the time
at which a message arrives makes no difference. -/
def received (nqty perm P : ℕ) (ins outs : ℕ → Ext) (data : ℕ → Mem D) (scratch : Mem D) (me : ℕ) : Mem D :=
  (others RecvRec.proc me (recvs nqty perm P ins outs me)).foldl
    (fun s r => store s r.bufloc ((messages nqty P ins outs data r.proc me).headD [])) scratch

/-- `remap_3d` on process `me`, remap_3d.c:65-113.  `data q` is the array `in` of process `q`, `out` that of `me` before the call (the same
memory as `data me` is allowed: everything is read before anything is written), `order` the indices `MPI_Waitany` returns.  `none`: an entry
of a list is used that was not set. -/
def remap (nqty perm P : ℕ) (ins outs : ℕ → Ext) (data : ℕ → Mem D) (out scratch : Mem D) (order : List ℕ) (me : ℕ) : Option (Mem D) :=
  let rs := recvs nqty perm P ins outs me
  let rl := others RecvRec.proc me rs
  let ss := sends nqty P ins outs me
  let sl := others SendRec.proc me ss
  let step (buf : Mem D) (d : Mem D) (r : RecvRec) : Mem D := unpack buf r.bufloc d r.off (unpackAddr perm nqty r.pk)
  let scr := received nqty perm P ins outs data scratch me
  let start : Option (Mem D × Mem D) :=
    if rs.length = rl.length then some (scr, out)
    else match ss[sl.length]?, rs[rl.length]? with
      | some s, some r =>
        let scr' := store scr r.bufloc (pack (data me) s.off s.pk)
        some (scr', step scr' out r)
      | _, _ => none
  start.map fun so => (order.filterMap fun i => rl[i]?).foldl (step so.1) so.2

end Athena.Fft
