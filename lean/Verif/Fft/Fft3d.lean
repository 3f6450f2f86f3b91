import Verif.Fft.Remap
import Mathlib.Data.Nat.Sqrt
import Mathlib.Data.Int.Interval
import Mathlib.Data.Finset.Prod
import Mathlib.Tactic.FinCases
import Mathlib.Algebra.BigOperators.Ring.Finset

/-!
# The three-dimensional transform of a block-decomposed array: src/fftsrc/fft_3d.c, factor.c, ath_fft.c

`fft_3d` as `ath_3d_fft` uses it: the same array for input and output, the same boxes, no scaling, storage order 0 (ath_fft.c:131-134, 166).
What FFTW does to one line is a parameter.
-/

namespace Athena.Fft
variable {D : Type _}

/-- The loop of `bifactor`, factor.c:74-81, from `n1` down; with `n1 = 0` nothing is returned (it does not happen: `bifactor_spec`). -/
def bifactorGo (n : ℕ) : ℕ → ℕ × ℕ
  | 0 => (0, 0)
  | n1 + 1 => if (n1 + 1) * (n / (n1 + 1)) = n then (n1 + 1, n / (n1 + 1)) else bifactorGo n n1

/-- `bifactor`, factor.c:67-82; the floating-point square root is taken as exact. -/
def bifactor (n : ℕ) : ℕ × ℕ := bifactorGo n (Nat.sqrt n)

/-- The first element of share `ip` of `np` of `n`: `ip*n/np`, fft_3d.c:225-228 and the like. -/
def lo (n np ip : ℕ) : ℤ := ((ip * n / np : ℕ) : ℤ)
/-- The last element of share `ip` of `np` of `n`: `(ip+1)*n/np - 1`. -/
def hi (n np ip : ℕ) : ℤ := (((ip + 1) * n / np : ℕ) : ℤ) - 1

/-- What the plan is made from: the number of processes, the size of the data set and the boxes. -/
structure Setup where
  P : ℕ
  nfast : ℕ
  nmid : ℕ
  nslow : ℕ
  box : ℕ → Ext

namespace Setup

/-- fft_3d.c:193. -/
def np1 (s : Setup) : ℕ := (bifactor s.P).1
/-- fft_3d.c:193. -/
def np2 (s : Setup) : ℕ := (bifactor s.P).2
/-- fft_3d.c:194. -/
def ip1 (s : Setup) (me : ℕ) : ℕ := me % s.np1
/-- fft_3d.c:195. -/
def ip2 (s : Setup) (me : ℕ) : ℕ := me / s.np1

/-- Some process does not own the whole fast axis: `remapflag` of fft_3d.c:206-211. -/
def pre (s : Setup) : Prop := ∃ p < s.P, ¬ ((s.box p).ilo = 0 ∧ (s.box p).ihi = (s.nfast : ℤ) - 1)

instance (s : Setup) : Decidable s.pre := by unfold pre; infer_instance

/-- fft_3d.c:213-228. -/
def first (s : Setup) (me : ℕ) : Ext :=
  if s.pre then ⟨0, (s.nfast : ℤ) - 1, lo s.nmid s.np1 (s.ip1 me), hi s.nmid s.np1 (s.ip1 me), lo s.nslow s.np2 (s.ip2 me), hi s.nslow s.np2 (s.ip2 me)⟩
  else s.box me

/-- fft_3d.c:246-251. -/
def second (s : Setup) (me : ℕ) : Ext :=
  ⟨lo s.nfast s.np1 (s.ip1 me), hi s.nfast s.np1 (s.ip1 me), 0, (s.nmid : ℤ) - 1, lo s.nslow s.np2 (s.ip2 me), hi s.nslow s.np2 (s.ip2 me)⟩

/-- fft_3d.c:287-292; with `permute = 0` `remapflag` is 1 there. -/
def third (s : Setup) (me : ℕ) : Ext :=
  ⟨lo s.nfast s.np1 (s.ip1 me), hi s.nfast s.np1 (s.ip1 me), lo s.nmid s.np2 (s.ip2 me), hi s.nmid s.np2 (s.ip2 me), 0, (s.nslow : ℤ) - 1⟩

/-- `total1`, fft_3d.c:240. -/
def total1 (s : Setup) (me : ℕ) : ℤ := s.nfast * ((s.first me).jhi - (s.first me).jlo + 1) * ((s.first me).khi - (s.first me).klo + 1)
/-- `total2`, fft_3d.c:264. -/
def total2 (s : Setup) (me : ℕ) : ℤ := ((s.second me).ihi - (s.second me).ilo + 1) * s.nmid * ((s.second me).khi - (s.second me).klo + 1)
/-- `total3`, fft_3d.c:307. -/
def total3 (s : Setup) (me : ℕ) : ℤ := ((s.third me).ihi - (s.third me).ilo + 1) * ((s.third me).jhi - (s.third me).jlo + 1) * s.nslow

/-- The number of lines `plan_fast` transforms, fft_3d.c:405-412. -/
def cnt1 (s : Setup) (me : ℕ) : ℤ := s.total1 me / s.nfast
/-- The number of lines `plan_mid` transforms: when the lengths agree it *is* `plan_fast`, fft_3d.c:414-427. -/
def cnt2 (s : Setup) (me : ℕ) : ℤ := if s.nmid = s.nfast then s.cnt1 me else s.total2 me / s.nmid
/-- The number of lines `plan_slow` transforms, fft_3d.c:429-446. -/
def cnt3 (s : Setup) (me : ℕ) : ℤ := if s.nslow = s.nfast then s.cnt1 me else if s.nslow = s.nmid then s.cnt2 me else s.total3 me / s.nslow

end Setup

/-- The number of elements of a box, fft_3d.c:344-350. -/
def Ext.size (e : Ext) : ℤ := (e.ihi - e.ilo + 1) * (e.jhi - e.jlo + 1) * (e.khi - e.klo + 1)

namespace Setup
/-- `pre_target`, fft_3d.c:356-359: `true` is the internal array `copy`, `false` the array of the caller. -/
def target1 (s : Setup) (me : ℕ) : Bool := if (s.first me).size ≤ (s.box me).size then false else true
/-- `mid1_target`, fft_3d.c:366-369. -/
def target2 (s : Setup) (me : ℕ) : Bool := if (s.second me).size ≤ (s.box me).size then false else true
/-- `mid2_target`, fft_3d.c:376-379. -/
def target3 (s : Setup) (me : ℕ) : Bool := if (s.third me).size ≤ (s.box me).size then false else true

/-- `copy_size`, fft_3d.c:352-383. -/
def copySize (s : Setup) (me : ℕ) : ℤ :=
  let c0 : ℤ := 0
  let c1 := if s.pre then (if s.target1 me then max c0 (s.first me).size else c0) else c0
  let c2 := if s.target2 me then max c1 (s.second me).size else c1
  if s.target3 me then max c2 (s.third me).size else c2

/-- `scratch_size`, fft_3d.c:353-386. -/
def scratchSize (s : Setup) (me : ℕ) : ℤ :=
  let c0 : ℤ := 0
  let c1 := if s.pre then max c0 (s.first me).size else c0
  let c2 := max c1 (s.second me).size
  let c3 := max c2 (s.third me).size
  max c3 (s.box me).size
end Setup

/-- The boxes with the axes in the order mid, slow, fast, as they are given to `remap_3d_create_plan` at fft_3d.c:297-300, 327-330. -/
def Ext.rot (e : Ext) : Ext := ⟨e.jlo, e.jhi, e.klo, e.khi, e.ilo, e.ihi⟩

/-- `fftw_execute_dft` of a plan of `fftw_plan_many_dft(1, &n, cnt, ..., 1, n, ...)` in place: the `cnt` lines of `n` elements (of two numbers
each) that follow each other are replaced by what `T n` makes of them. -/
def fftw (T : ℕ → (ℕ → ℕ → D) → ℕ → ℕ → D) (n : ℕ) (cnt : ℤ) (m : Mem D) : Mem D := fun x =>
  if 0 ≤ x ∧ x < 2 * (cnt * n) then
    T n (fun a c => m (2 * (x / 2 / n * n + a) + c)) (x / 2 % n).toNat (x % 2).toNat
  else m x

/-- The arrays of one process: that of the caller and `plan->copy`. -/
structure Bufs (D : Type _) where
  user : Mem D
  copy : Mem D

/-- The array a pointer points to. -/
def Bufs.get (b : Bufs D) (t : Bool) : Mem D := if t then b.copy else b.user
/-- The arrays after the array a pointer points to has been given new contents. -/
def Bufs.set (b : Bufs D) (t : Bool) (m : Mem D) : Bufs D := if t then ⟨b.user, m⟩ else ⟨m, b.copy⟩

/-- `remap_3d(data, copy, scratch, ...)` on all processes: `cur` says where `data` points, `tgt` where `copy` points. -/
def remapAll (P perm : ℕ) (ins outs : ℕ → Ext) (cur tgt : ℕ → Bool) (scr : ℕ → Mem D) (ord : ℕ → List ℕ) (b : ℕ → Bufs D) : Option (ℕ → Bufs D) :=
  let r : ℕ → Option (Mem D) := fun p =>
    remap 2 perm P ins outs (fun q => (b q).get (cur q)) ((b p).get (tgt p)) (scr p) (ord p) p
  if ∀ p < P, (r p).isSome then some fun p => (b p).set (tgt p) ((r p).getD ((b p).get (tgt p))) else none

/-- The one-dimensional transforms on all processes. -/
def fftwAll (T : ℕ → (ℕ → ℕ → D) → ℕ → ℕ → D) (n : ℕ) (cnt : ℕ → ℤ) (cur : ℕ → Bool) (b : ℕ → Bufs D) : ℕ → Bufs D :=
  fun p => (b p).set (cur p) (fftw T n (cnt p) ((b p).get (cur p)))

/-- `fft_3d(data, data, flag, plan)`, fft_3d.c:61-144, on all processes, for the direction whose one-dimensional transform is `T`.  `scr n` and
`ord n` are the contents of `plan->scratch` at the `n`-th redistribution and the order in which its messages arrive. -/
def fft3d (T : ℕ → (ℕ → ℕ → D) → ℕ → ℕ → D) (s : Setup) (scr : ℕ → ℕ → Mem D) (ord : ℕ → ℕ → List ℕ) (b : ℕ → Bufs D) : Option (ℕ → Bufs D) := do
  let user : ℕ → Bool := fun _ => false
  let cur1 := if s.pre then s.target1 else user
  let start : Option (ℕ → Bufs D) := if s.pre then remapAll s.P 0 s.box s.first user s.target1 (scr 0) (ord 0) b else some b
  let b1 ← start
  let b2 := fftwAll T s.nfast s.cnt1 cur1 b1
  let b3 ← remapAll s.P 1 s.first s.second cur1 s.target2 (scr 1) (ord 1) b2
  let b4 := fftwAll T s.nmid s.cnt2 s.target2 b3
  let b5 ← remapAll s.P 1 (fun p => (s.second p).rot) (fun p => (s.third p).rot) s.target2 s.target3 (scr 2) (ord 2) b4
  let b6 := fftwAll T s.nslow s.cnt3 s.target3 b5
  remapAll s.P 1 (fun p => (s.third p).rot.rot) (fun p => (s.box p).rot.rot) s.target3 user (scr 3) (ord 3) b6

end Athena.Fft
