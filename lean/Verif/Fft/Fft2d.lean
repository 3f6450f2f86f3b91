import Verif.Fft.Fft3d

/-!
# The two-dimensional transform of a block-decomposed array: src/fftsrc/pack_2d.c, remap_2d.c, fft_2d.c, ath_fft.c

`fft_2d` as `ath_2d_fft` uses it: the same array for input and output, the same boxes, no scaling, storage order 0 (ath_fft.c:292-294, 329).
The simplifications are those of `Fft/Model` and `Fft/Fft3d`: memory is a function from addresses to values, `malloc` does not fail, `int` does
not overflow, `precision` is 2, the version of pack_2d.c that is compiled by default; what FFTW does to one line is a parameter.
-/

namespace Athena.Fft
variable {D : Type _}

/-- `struct extent_2d`, remap_2d.h; the sizes are `hi - lo + 1` wherever the code sets them (remap_2d.c:167-181, 454-455). -/
structure Ext2 where
  ilo : ℤ
  ihi : ℤ
  jlo : ℤ
  jhi : ℤ
  deriving DecidableEq, Repr

/-- `isize`, remap_2d.c. -/
def Ext2.isize (e : Ext2) : ℤ := e.ihi - e.ilo + 1
/-- `jsize`, remap_2d.c. -/
def Ext2.jsize (e : Ext2) : ℤ := e.jhi - e.jlo + 1

/-- `remap_2d_collide`, remap_2d.c:443-458: the overlap, if there is one. -/
def collide2 (a b : Ext2) : Option Ext2 :=
  let o : Ext2 := ⟨max a.ilo b.ilo, min a.ihi b.ihi, max a.jlo b.jlo, min a.jhi b.jhi⟩
  if o.ilo > o.ihi ∨ o.jlo > o.jhi then none else some o

/-- `struct pack_plan_2d`, pack_2d.h. -/
structure Pack2 where
  nfast : ℤ
  nslow : ℤ
  nstride : ℤ
  nqty : ℤ

/-- The addresses `pack_2d` reads, in the order in which it writes their values: pack_2d.c:53-58; and those `unpack_2d` writes: pack_2d.c:74-79. -/
def packAddr2 (p : Pack2) : List ℤ :=
  (List.range p.nslow.toNat).flatMap fun (slow : ℕ) => (List.range p.nfast.toNat).map fun (fast : ℕ) => slow * p.nstride + fast

/-- The addresses `unpack_2d_permute_1` writes, pack_2d.c:95-100. -/
def addrP1 (p : Pack2) : List ℤ :=
  (List.range p.nslow.toNat).flatMap fun (slow : ℕ) => (List.range p.nfast.toNat).map fun (fast : ℕ) => slow + fast * p.nstride

/-- The addresses `unpack_2d_permute_2` writes, pack_2d.c:116-123. -/
def addrP2 (p : Pack2) : List ℤ :=
  (List.range p.nslow.toNat).flatMap fun (slow : ℕ) => (List.range p.nfast.toNat).flatMap fun (fast : ℕ) =>
    [2 * slow + fast * p.nstride, 2 * slow + fast * p.nstride + 1]

/-- The addresses `unpack_2d_permute_n` writes, pack_2d.c:140-147. -/
def addrPn (p : Pack2) : List ℤ :=
  (List.range p.nslow.toNat).flatMap fun (slow : ℕ) => (List.range p.nfast.toNat).flatMap fun (fast : ℕ) =>
    (List.range p.nqty.toNat).map fun (iqty : ℕ) => p.nqty * slow + fast * p.nstride + iqty

/-- Which `unpack` the plan uses, remap_2d.c:275-284. -/
def unpackAddr2 (perm nqty : ℕ) (p : Pack2) : List ℤ :=
  if perm = 0 then packAddr2 p else if nqty = 1 then addrP1 p else if nqty = 2 then addrP2 p else addrPn p

/-- `plan->pack(&data[off], buf, p)`: what is put into `buf`, pack_2d.c:43-59. -/
def pack2 (data : Mem D) (off : ℤ) (p : Pack2) : List D := (packAddr2 p).map fun a => data (off + a)

/-- One entry of `send_proc, send_offset, packplan, send_size`. -/
structure SendRec2 where
  proc : ℕ
  off : ℤ
  pk : Pack2
  size : ℤ

/-- One entry of `recv_proc, recv_bufloc, recv_offset, unpackplan, recv_size`. -/
structure RecvRec2 where
  proc : ℕ
  bufloc : ℤ
  off : ℤ
  pk : Pack2
  size : ℤ

/-- remap_2d.c:228-235. -/
def send2 (nqty : ℕ) (e : Ext2) (p : ℕ) (o : Ext2) : SendRec2 where
  proc := p
  off := nqty * ((o.jlo - e.jlo) * e.isize + (o.ilo - e.ilo))
  pk :=
    { nfast := nqty * o.isize
      nslow := o.jsize
      nstride := nqty * e.isize
      nqty := nqty }
  size := nqty * o.isize * o.jsize

/-- remap_2d.c:222-238: the sends of process `me`, itself included. -/
def sends2 (nqty P : ℕ) (ins outs : ℕ → Ext2) (me : ℕ) : List SendRec2 :=
  (ring P me).filterMap fun p => (collide2 (ins me) (outs p)).map (send2 nqty (ins me) p)

/-- remap_2d.c:309-330. -/
def recv2 (nqty perm : ℕ) (e : Ext2) (ibuf : ℤ) (p : ℕ) (o : Ext2) : RecvRec2 where
  proc := p
  bufloc := ibuf
  off := if perm = 0 then nqty * ((o.jlo - e.jlo) * e.isize + (o.ilo - e.ilo)) else nqty * ((o.ilo - e.ilo) * e.jsize + (o.jlo - e.jlo))
  pk :=
    if perm = 0 then
      { nfast := nqty * o.isize
        nslow := o.jsize
        nstride := nqty * e.isize
        nqty := nqty }
    else
      { nfast := o.isize
        nslow := o.jsize
        nstride := nqty * e.jsize
        nqty := nqty }
  size := nqty * o.isize * o.jsize

/-- remap_2d.c:305-333, the rest of the loop when `ibuf` numbers have been given out. -/
def recvGo2 (nqty perm : ℕ) (e : Ext2) (ins : ℕ → Ext2) : ℤ → List ℕ → List RecvRec2
  | _, [] => []
  | ibuf, p :: ps =>
    match collide2 e (ins p) with
    | none => recvGo2 nqty perm e ins ibuf ps
    | some o => recv2 nqty perm e ibuf p o :: recvGo2 nqty perm e ins (ibuf + (recv2 nqty perm e ibuf p o).size) ps

/-- remap_2d.c:301-333: the receives of process `me`, itself included. -/
def recvs2 (nqty perm P : ℕ) (ins outs : ℕ → Ext2) (me : ℕ) : List RecvRec2 := recvGo2 nqty perm (outs me) ins 0 (ring P me)

/-- The messages process `q` sends to process `me`, remap_2d.c:86-91, in order; the first `plan->nsend` entries (242-245) are sent. -/
def messages2 (nqty P : ℕ) (ins outs : ℕ → Ext2) (data : ℕ → Mem D) (q me : ℕ) : List (List D) :=
  ((others SendRec2.proc q (sends2 nqty P ins outs q)).filter fun s => s.proc = me).map fun s => pack2 (data q) s.off s.pk

/-- `scratch` of process `me` when all its receives are complete, remap_2d.c:79-82. -/
def received2 (nqty perm P : ℕ) (ins outs : ℕ → Ext2) (data : ℕ → Mem D) (scratch : Mem D) (me : ℕ) : Mem D :=
  (others RecvRec2.proc me (recvs2 nqty perm P ins outs me)).foldl
    (fun s r => store s r.bufloc ((messages2 nqty P ins outs data r.proc me).headD [])) scratch

/-- `remap_2d` on process `me`, remap_2d.c:64-112, as `remap` for `remap_3d`. -/
def remap2 (nqty perm P : ℕ) (ins outs : ℕ → Ext2) (data : ℕ → Mem D) (out scratch : Mem D) (order : List ℕ) (me : ℕ) : Option (Mem D) :=
  let rs := recvs2 nqty perm P ins outs me
  let rl := others RecvRec2.proc me rs
  let ss := sends2 nqty P ins outs me
  let sl := others SendRec2.proc me ss
  let step (buf : Mem D) (d : Mem D) (r : RecvRec2) : Mem D := unpack buf r.bufloc d r.off (unpackAddr2 perm nqty r.pk)
  let scr := received2 nqty perm P ins outs data scratch me
  let start : Option (Mem D × Mem D) :=
    if rs.length = rl.length then some (scr, out)
    else match ss[sl.length]?, rs[rl.length]? with
      | some s, some r =>
        let scr' := store scr r.bufloc (pack2 (data me) s.off s.pk)
        some (scr', step scr' out r)
      | _, _ => none
  start.map fun so => (order.filterMap fun i => rl[i]?).foldl (step so.1) so.2

/-- What the plan is made from: the number of processes, the size of the data set and the boxes. -/
structure Setup2 where
  P : ℕ
  nfast : ℕ
  nslow : ℕ
  box : ℕ → Ext2

/-- The number of elements of a box, fft_2d.c:274-276. -/
def Ext2.size (e : Ext2) : ℤ := (e.ihi - e.ilo + 1) * (e.jhi - e.jlo + 1)

namespace Setup2

/-- Some process does not own the whole fast axis: `remapflag` of fft_2d.c:176-181. -/
def pre (s : Setup2) : Prop := ∃ p < s.P, ¬ ((s.box p).ilo = 0 ∧ (s.box p).ihi = (s.nfast : ℤ) - 1)

instance (s : Setup2) : Decidable s.pre := by unfold pre; infer_instance

/-- fft_2d.c:183-194. -/
def first (s : Setup2) (me : ℕ) : Ext2 :=
  if s.pre then ⟨0, (s.nfast : ℤ) - 1, lo s.nslow s.P me, hi s.nslow s.P me⟩ else s.box me

/-- fft_2d.c:225-230; with `permute = 0` `remapflag` is 1 there. -/
def second (s : Setup2) (me : ℕ) : Ext2 := ⟨lo s.nfast s.P me, hi s.nfast s.P me, 0, (s.nslow : ℤ) - 1⟩

/-- `total1`, fft_2d.c:204. -/
def total1 (s : Setup2) (me : ℕ) : ℤ := s.nfast * ((s.first me).jhi - (s.first me).jlo + 1)
/-- `total2`, fft_2d.c:240. -/
def total2 (s : Setup2) (me : ℕ) : ℤ := ((s.second me).ihi - (s.second me).ilo + 1) * s.nslow

/-- The number of lines `plan_fast` transforms, fft_2d.c:321-328. -/
def cnt1 (s : Setup2) (me : ℕ) : ℤ := s.total1 me / s.nfast
/-- The number of lines `plan_slow` transforms: when the lengths agree it *is* `plan_fast`, fft_2d.c:330-343. -/
def cnt2 (s : Setup2) (me : ℕ) : ℤ := if s.nslow = s.nfast then s.cnt1 me else s.total2 me / s.nslow

/-- `pre_target`, fft_2d.c:282-285: `true` is the internal array `copy`, `false` the array of the caller. -/
def target1 (s : Setup2) (me : ℕ) : Bool := if (s.first me).size ≤ (s.box me).size then false else true
/-- `mid_target`, fft_2d.c:292-295. -/
def target2 (s : Setup2) (me : ℕ) : Bool := if (s.second me).size ≤ (s.box me).size then false else true

/-- `copy_size`, fft_2d.c:278-297. -/
def copySize (s : Setup2) (me : ℕ) : ℤ :=
  let c0 : ℤ := 0
  let c1 := if s.pre then (if s.target1 me then max c0 (s.first me).size else c0) else c0
  if s.target2 me then max c1 (s.second me).size else c1

/-- `scratch_size`, fft_2d.c:279-302; with `permute = 0` there is a `post_plan`. -/
def scratchSize (s : Setup2) (me : ℕ) : ℤ :=
  let c0 : ℤ := 0
  let c1 := if s.pre then max c0 (s.first me).size else c0
  let c2 := max c1 (s.second me).size
  max c2 (s.box me).size

end Setup2

/-- The box with its axes exchanged, as it is given to `remap_2d_create_plan` at fft_2d.c:256-259. -/
def Ext2.swap (e : Ext2) : Ext2 := ⟨e.jlo, e.jhi, e.ilo, e.ihi⟩

/-- `remap_2d(data, copy, scratch, ...)` on all processes: `cur` says where `data` points, `tgt` where `copy` points. -/
def remapAll2 (P perm : ℕ) (ins outs : ℕ → Ext2) (cur tgt : ℕ → Bool) (scr : ℕ → Mem D) (ord : ℕ → List ℕ) (b : ℕ → Bufs D) : Option (ℕ → Bufs D) :=
  let r : ℕ → Option (Mem D) := fun p =>
    remap2 2 perm P ins outs (fun q => (b q).get (cur q)) ((b p).get (tgt p)) (scr p) (ord p) p
  if ∀ p < P, (r p).isSome then some fun p => (b p).set (tgt p) ((r p).getD ((b p).get (tgt p))) else none

/-- `fft_2d(data, data, flag, plan)`, fft_2d.c:62-125, on all processes, for the direction whose one-dimensional transform is `T`. -/
def fft2d (T : ℕ → (ℕ → ℕ → D) → ℕ → ℕ → D) (s : Setup2) (scr : ℕ → ℕ → Mem D) (ord : ℕ → ℕ → List ℕ) (b : ℕ → Bufs D) : Option (ℕ → Bufs D) := do
  let user : ℕ → Bool := fun _ => false
  let cur1 := if s.pre then s.target1 else user
  let start : Option (ℕ → Bufs D) := if s.pre then remapAll2 s.P 0 s.box s.first user s.target1 (scr 0) (ord 0) b else some b
  let b1 ← start
  let b2 := fftwAll T s.nfast s.cnt1 cur1 b1
  let b3 ← remapAll2 s.P 1 s.first s.second cur1 s.target2 (scr 1) (ord 1) b2
  let b4 := fftwAll T s.nslow s.cnt2 s.target2 b3
  remapAll2 s.P 1 (fun p => (s.second p).swap) (fun p => (s.box p).swap) s.target2 user (scr 2) (ord 2) b4

/-! ## Two dimensions as three with one plane -/

/-- A box as a box of one plane. -/
def Ext2.up (e : Ext2) : Ext := ⟨e.ilo, e.ihi, e.jlo, e.jhi, 0, 0⟩

theorem up_i (e : Ext2) : e.up.isize = e.isize := rfl
theorem up_j (e : Ext2) : e.up.jsize = e.jsize := rfl
theorem up_k (e : Ext2) : e.up.ksize = 1 := rfl

theorem collide_up (a b : Ext2) : collide a.up b.up = (collide2 a b).map Ext2.up := by
  unfold collide collide2 Ext2.up
  simp only [max_self, min_self, gt_iff_lt, lt_irrefl, or_false]
  split <;> rfl

def SendRec2.up (nq : ℕ) (e : Ext2) (s : SendRec2) : SendRec :=
  ⟨s.proc, s.off, ⟨s.pk.nfast, s.pk.nslow, 1, s.pk.nstride, nq * e.jsize * e.isize, s.pk.nqty⟩, s.size⟩

def RecvRec2.up (nq perm : ℕ) (e : Ext2) (r : RecvRec2) : RecvRec :=
  ⟨r.proc, r.bufloc, r.off,
    if perm = 0 then ⟨r.pk.nfast, r.pk.nslow, 1, r.pk.nstride, nq * e.jsize * e.isize, r.pk.nqty⟩
    else ⟨r.pk.nfast, r.pk.nslow, 1, nq * e.jsize, r.pk.nstride, r.pk.nqty⟩, r.size⟩

theorem send_up (nq : ℕ) (e : Ext2) (p : ℕ) (o : Ext2) : send1 nq e.up p o.up = (send2 nq e p o).up nq e := by
  unfold send1 send2 SendRec2.up
  simp only [up_i, up_j, up_k, mul_one, SendRec.mk.injEq, true_and, and_true]
  simp only [Ext2.up]
  ring

theorem recv_up (nq : ℕ) {perm : ℕ} (hp : perm = 0 ∨ perm = 1) (e : Ext2) (ib : ℤ) (p : ℕ) (o : Ext2) :
    recv1 nq perm e.up ib p o.up = (recv2 nq perm e ib p o).up nq perm e := by
  rcases hp with rfl | rfl
  · unfold recv1 recv2 RecvRec2.up
    simp only [if_true, up_i, up_j, up_k, mul_one, RecvRec.mk.injEq, true_and, and_true]
    simp only [Ext2.up]; ring
  · unfold recv1 recv2 RecvRec2.up
    simp only [one_ne_zero, if_false, if_true, up_i, up_j, up_k, mul_one, RecvRec.mk.injEq, true_and, and_true]
    simp only [Ext2.up]; ring

theorem pack_up (nq : ℕ) (e : Ext2) (data : Mem D) (s : SendRec2) : pack data (s.up nq e).off (s.up nq e).pk = pack2 data s.off s.pk := by
  unfold pack pack2 packAddr packAddr2 SendRec2.up
  simp

theorem unpack_up (nq : ℕ) {perm : ℕ} (hp : perm = 0 ∨ perm = 1) (e : Ext2) (r : RecvRec2) :
    unpackAddr perm nq (r.up nq perm e).pk = unpackAddr2 perm nq r.pk := by
  rcases hp with rfl | rfl
  · unfold unpackAddr unpackAddr2 packAddr packAddr2 RecvRec2.up
    simp
  · unfold unpackAddr unpackAddr2 addr11 addr12 addr1n addrP1 addrP2 addrPn RecvRec2.up
    simp

theorem sends_up (nq P : ℕ) (ins outs : ℕ → Ext2) (me : ℕ) :
    sends nq P (fun p => (ins p).up) (fun p => (outs p).up) me = (sends2 nq P ins outs me).map (SendRec2.up nq (ins me)) := by
  unfold sends sends2
  rw [List.map_filterMap]
  apply List.filterMap_congr
  intro p _
  rw [collide_up]
  rcases collide2 (ins me) (outs p) with _ | o
  · rfl
  · simp only [Option.map_some, send_up]

theorem recvGo_up (nq : ℕ) {perm : ℕ} (hp : perm = 0 ∨ perm = 1) (e : Ext2) (ins : ℕ → Ext2) (l : List ℕ) (ib : ℤ) :
    recvGo nq perm e.up (fun p => (ins p).up) ib l = (recvGo2 nq perm e ins ib l).map (RecvRec2.up nq perm e) := by
  induction l generalizing ib with
  | nil => rfl
  | cons p l ih =>
    rcases h : collide2 e (ins p) with _ | o
    · simp only [recvGo, recvGo2, collide_up, h, Option.map_none, ih]
    · simp only [recvGo, recvGo2, collide_up, h, Option.map_some, ih, List.map_cons, recv_up nq hp]
      rfl

theorem recvs_up (nq : ℕ) {perm : ℕ} (hp : perm = 0 ∨ perm = 1) (P : ℕ) (ins outs : ℕ → Ext2) (me : ℕ) :
    recvs nq perm P (fun p => (ins p).up) (fun p => (outs p).up) me = (recvs2 nq perm P ins outs me).map (RecvRec2.up nq perm (outs me)) :=
  recvGo_up nq hp (outs me) ins (ring P me) 0

theorem others_map {α β : Type _} (f : α → β) (pr : β → ℕ) (pr2 : α → ℕ) (h : ∀ a, pr (f a) = pr2 a) (me : ℕ) (l : List α) :
    others pr me (l.map f) = (others pr2 me l).map f := by
  unfold others
  rw [List.getLast?_map]
  rcases l.getLast? with _ | x
  · rfl
  · simp only [Option.map_some, h]
    split
    · rw [List.map_dropLast]
    · rfl

theorem messages_up (nq P : ℕ) (ins outs : ℕ → Ext2) (data : ℕ → Mem D) (q me : ℕ) :
    messages nq P (fun p => (ins p).up) (fun p => (outs p).up) data q me = messages2 nq P ins outs data q me := by
  unfold messages messages2
  rw [sends_up, others_map _ SendRec.proc SendRec2.proc (fun _ => rfl), List.filter_map, List.map_map]
  apply List.map_congr_left
  intro s _
  exact pack_up nq (ins q) (data q) s

theorem remap_up (nq : ℕ) {perm : ℕ} (hp : perm = 0 ∨ perm = 1) (P : ℕ) (ins outs : ℕ → Ext2) (data : ℕ → Mem D) (out scratch : Mem D) (order : List ℕ)
    (me : ℕ) :
    remap nq perm P (fun p => (ins p).up) (fun p => (outs p).up) data out scratch order me = remap2 nq perm P ins outs data out scratch order me := by
  have hscr : received nq perm P (fun p => (ins p).up) (fun p => (outs p).up) data scratch me = received2 nq perm P ins outs data scratch me := by
    unfold received received2
    rw [recvs_up nq hp, others_map _ RecvRec.proc RecvRec2.proc (fun _ => rfl), List.foldl_map]
    simp only [messages_up]
    rfl
  have hfold : ∀ (buf d : Mem D) (l : List RecvRec2),
      (l.map (RecvRec2.up nq perm (outs me))).foldl (fun d r => unpack buf r.bufloc d r.off (unpackAddr perm nq r.pk)) d
        = l.foldl (fun d r => unpack buf r.bufloc d r.off (unpackAddr2 perm nq r.pk)) d := by
    intro buf d l
    rw [List.foldl_map]
    simp only [unpack_up nq hp]
    rfl
  have hsel : ∀ l : List RecvRec2, (order.filterMap fun i => Option.map (RecvRec2.up nq perm (outs me)) l[i]?)
      = (order.filterMap fun i => l[i]?).map (RecvRec2.up nq perm (outs me)) := by
    intro l
    rw [List.map_filterMap]
  unfold remap remap2
  simp only [hscr, recvs_up nq hp, sends_up, others_map (RecvRec2.up nq perm (outs me)) RecvRec.proc RecvRec2.proc (fun _ => rfl),
    others_map (SendRec2.up nq (ins me)) SendRec.proc SendRec2.proc (fun _ => rfl), List.length_map, hsel, hfold, List.getElem?_map]
  split
  · rfl
  · rcases (sends2 nq P ins outs me)[(others SendRec2.proc me (sends2 nq P ins outs me)).length]? with _ | s
    · rfl
    · rcases (recvs2 nq perm P ins outs me)[(others RecvRec2.proc me (recvs2 nq perm P ins outs me)).length]? with _ | r
      · rfl
      · simp only [Option.map_some, pack_up, unpack_up nq hp]
        rfl

end Athena.Fft
