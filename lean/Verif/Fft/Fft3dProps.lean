import Verif.Fft.Fft3d
import Verif.Grav.Dft

/-!
# The decomposed transform is the transform

`fft3d_correct_partial`: when each process transforms as many lines as it owns, the result on every process is its part of the transform of
the whole data set, for every number of processes, every decomposition, every order of arrival of the messages, and whatever one-dimensional
transform FFTW performs.  `counts_pre`, `counts_even`: that is so for cubes and for decompositions that divide evenly.  `fft3d_false`: it is not
always so.
-/

namespace Athena.Fft
variable {D : Type _}

/-! ## Specification -/

/-- The transform of the whole data set along its first, second, third axis. -/
def alongI (T : ℕ → (ℕ → ℕ → D) → ℕ → ℕ → D) (n : ℕ) (A : ℤ → ℤ → ℤ → ℕ → D) : ℤ → ℤ → ℤ → ℕ → D := fun i j k c => T n (fun a c => A a j k c) i.toNat c
def alongJ (T : ℕ → (ℕ → ℕ → D) → ℕ → ℕ → D) (n : ℕ) (A : ℤ → ℤ → ℤ → ℕ → D) : ℤ → ℤ → ℤ → ℕ → D := fun i j k c => T n (fun a c => A i a k c) j.toNat c
def alongK (T : ℕ → (ℕ → ℕ → D) → ℕ → ℕ → D) (n : ℕ) (A : ℤ → ℤ → ℤ → ℕ → D) : ℤ → ℤ → ℤ → ℕ → D := fun i j k c => T n (fun a c => A i j a c) k.toNat c

/-- The transform of the whole data set. -/
def trans3 (T : ℕ → (ℕ → ℕ → D) → ℕ → ℕ → D) (s : Setup) (A : ℤ → ℤ → ℤ → ℕ → D) : ℤ → ℤ → ℤ → ℕ → D :=
  alongK T s.nslow (alongJ T s.nmid (alongI T s.nfast A))

/-- The one-dimensional transform of a line of `n` elements depends on these elements only. -/
def Local (T : ℕ → (ℕ → ℕ → D) → ℕ → ℕ → D) : Prop :=
  ∀ n x y, (∀ a < n, ∀ c < 2, x a c = y a c) → ∀ a < n, ∀ c < 2, T n x a c = T n y a c

/-- The data set. -/
def Setup.all (s : Setup) (i j k : ℤ) : Prop := (0 ≤ i ∧ i < s.nfast) ∧ (0 ≤ j ∧ j < s.nmid) ∧ (0 ≤ k ∧ k < s.nslow)

/-- The boxes lie in the data set and cover it. -/
structure Setup.Tiled (s : Setup) : Prop where
  sub : ∀ p < s.P, ∀ i j k, (s.box p).has i j k → s.all i j k
  cov : ∀ i j k, s.all i j k → ∃ p < s.P, (s.box p).has i j k

/-- The messages of every redistribution all arrive, in any order. -/
structure Arrive (s : Setup) (ord : ℕ → ℕ → List ℕ) : Prop where
  o0 : ∀ p < s.P, (ord 0 p).Perm (List.range (others RecvRec.proc p (recvs 2 0 s.P s.box s.first p)).length)
  o1 : ∀ p < s.P, (ord 1 p).Perm (List.range (others RecvRec.proc p (recvs 2 1 s.P s.first s.second p)).length)
  o2 : ∀ p < s.P, (ord 2 p).Perm (List.range (others RecvRec.proc p (recvs 2 1 s.P (fun p => (s.second p).rot) (fun p => (s.third p).rot) p)).length)
  o3 : ∀ p < s.P, (ord 3 p).Perm (List.range (others RecvRec.proc p (recvs 2 1 s.P (fun p => (s.third p).rot.rot) (fun p => (s.box p).rot.rot) p)).length)

/-- Each process transforms as many lines as it owns. -/
def Setup.Counts (s : Setup) : Prop :=
  ∀ p < s.P, s.cnt2 p = (s.second p).ksize * (s.second p).isize ∧ s.cnt3 p = (s.third p).isize * (s.third p).jsize

/-! ## The division of the processes and of the axes -/

theorem bifactorGo_spec (n : ℕ) (hn : 0 < n) (m : ℕ) (hm : 0 < m) : (bifactorGo n m).1 * (bifactorGo n m).2 = n := by
  induction m with
  | zero => omega
  | succ m ih =>
    unfold bifactorGo
    split
    · assumption
    · rename_i h
      apply ih
      rcases Nat.eq_zero_or_pos m with rfl | h'
      · simp at h
      · exact h'

/-- `bifactor` returns two factors. -/
theorem bifactor_spec (n : ℕ) (hn : 0 < n) : (bifactor n).1 * (bifactor n).2 = n :=
  bifactorGo_spec n hn _ (Nat.sqrt_pos.mpr hn)

theorem bifactor_of {n r : ℕ} (h : r * r ≤ n ∧ n < (r + 1) * (r + 1)) : bifactor n = bifactorGo n r := by
  unfold bifactor
  rw [← Nat.eq_sqrt.mpr h]

example : bifactor 12 = (3, 4) ∧ bifactor 7 = (1, 7) :=
  ⟨by rw [bifactor_of (r := 3) (by omega)]; decide, by rw [bifactor_of (r := 2) (by omega)]; decide⟩

theorem share_cover (n np x : ℕ) (hx : x < n) (hnp : 0 < np) : ∃ ip < np, lo n np ip ≤ x ∧ (x : ℤ) ≤ hi n np ip := by
  have hn : 0 < n := by omega
  have hpos : 0 < (x + 1) * np := Nat.mul_pos (by omega) hnp
  have hd := Nat.div_add_mod ((x + 1) * np - 1) n
  have hmod := Nat.mod_lt ((x + 1) * np - 1) hn
  set ip := ((x + 1) * np - 1) / n with hip
  have hle : (x + 1) * np ≤ n * np := Nat.mul_le_mul_right _ (by omega)
  have hlt : ip < np := by
    rw [hip, Nat.div_lt_iff_lt_mul hn, mul_comm np n]; omega
  have h1 : ip * n < (x + 1) * np := by rw [mul_comm ip n]; omega
  have h2 : (x + 1) * np ≤ (ip + 1) * n := by
    have : (ip + 1) * n = n * ip + n := by ring
    omega
  refine ⟨ip, hlt, ?_, ?_⟩
  · unfold lo
    have : ip * n / np < x + 1 := by rw [Nat.div_lt_iff_lt_mul hnp]; exact h1
    omega
  · unfold hi
    have : x + 1 ≤ (ip + 1) * n / np := by rw [Nat.le_div_iff_mul_le hnp]; exact h2
    omega

theorem share_range {n np ip : ℕ} (h : ip < np) : 0 ≤ lo n np ip ∧ hi n np ip < n ∧ lo n np ip ≤ hi n np ip + 1 := by
  unfold lo hi
  have hnp : 0 < np := by omega
  have h1 : (ip + 1) * n / np ≤ n := by
    apply Nat.div_le_of_le_mul
    exact Nat.mul_le_mul_right _ (by omega)
  have h2 : ip * n / np ≤ (ip + 1) * n / np := Nat.div_le_div_right (Nat.mul_le_mul_right _ (by omega))
  have h3 : (0 : ℤ) ≤ ((ip * n / np : ℕ) : ℤ) := Int.natCast_nonneg _
  generalize ip * n / np = a at *
  generalize (ip + 1) * n / np = b at *
  omega

namespace Setup
variable {s : Setup}

theorem np_mul (hP : 0 < s.P) : s.np1 * s.np2 = s.P := bifactor_spec s.P hP

theorem np_pos (hP : 0 < s.P) : 0 < s.np1 ∧ 0 < s.np2 := by
  have h := np_mul hP
  constructor
  · rcases Nat.eq_zero_or_pos s.np1 with h0 | h0
    · rw [h0, Nat.zero_mul] at h; omega
    · exact h0
  · rcases Nat.eq_zero_or_pos s.np2 with h0 | h0
    · rw [h0, Nat.mul_zero] at h; omega
    · exact h0

theorem ip_lt (hP : 0 < s.P) {p : ℕ} (hp : p < s.P) : s.ip1 p < s.np1 ∧ s.ip2 p < s.np2 := by
  refine ⟨Nat.mod_lt _ (np_pos hP).1, ?_⟩
  unfold ip2
  rw [Nat.div_lt_iff_lt_mul (np_pos hP).1, mul_comm, np_mul hP]
  exact hp

theorem proc_of (hP : 0 < s.P) {a b : ℕ} (ha : a < s.np1) (hb : b < s.np2) : ∃ p < s.P, s.ip1 p = a ∧ s.ip2 p = b := by
  refine ⟨a + s.np1 * b, ?_, ?_, ?_⟩
  · rw [← np_mul hP]
    calc a + s.np1 * b < s.np1 + s.np1 * b := by omega
      _ = s.np1 * (b + 1) := by ring
      _ ≤ s.np1 * s.np2 := Nat.mul_le_mul_left _ (by omega)
  · unfold ip1; rw [Nat.add_mul_mod_self_left, Nat.mod_eq_of_lt ha]
  · unfold ip2; rw [Nat.add_mul_div_left _ _ (np_pos hP).1, Nat.div_eq_of_lt ha, Nat.zero_add]

theorem split_cover (hP : 0 < s.P) (n1 n2 : ℕ) {x y : ℤ} (hx : 0 ≤ x ∧ x < n1) (hy : 0 ≤ y ∧ y < n2) :
    ∃ p < s.P, (lo n1 s.np1 (s.ip1 p) ≤ x ∧ x ≤ hi n1 s.np1 (s.ip1 p)) ∧ (lo n2 s.np2 (s.ip2 p) ≤ y ∧ y ≤ hi n2 s.np2 (s.ip2 p)) := by
  obtain ⟨a, ha, a1, a2⟩ := share_cover n1 s.np1 x.toNat (by omega) (np_pos hP).1
  obtain ⟨b, hb, b1, b2⟩ := share_cover n2 s.np2 y.toNat (by omega) (np_pos hP).2
  obtain ⟨p, hp, e1, e2⟩ := proc_of hP ha hb
  refine ⟨p, hp, ?_, ?_⟩
  · rw [e1]; omega
  · rw [e2]; omega

theorem first_cov (hP : 0 < s.P) (ht : s.Tiled) {i j k : ℤ} (h : s.all i j k) : ∃ p < s.P, (s.first p).has i j k := by
  by_cases hpre : s.pre
  · obtain ⟨p, hp, h1, h2⟩ := split_cover hP s.nmid s.nslow h.2.1 h.2.2
    refine ⟨p, hp, ?_⟩
    unfold first
    rw [if_pos hpre]
    exact ⟨⟨h.1.1, by have := h.1.2; show i ≤ (s.nfast : ℤ) - 1; omega⟩, h1, h2⟩
  · unfold first
    simp only [if_neg hpre]
    exact ht.cov i j k h

theorem second_cov (hP : 0 < s.P) {i j k : ℤ} (h : s.all i j k) : ∃ p < s.P, (s.second p).has i j k := by
  obtain ⟨p, hp, h1, h2⟩ := split_cover hP s.nfast s.nslow h.1 h.2.2
  exact ⟨p, hp, h1, ⟨h.2.1.1, by have := h.2.1.2; show j ≤ (s.nmid : ℤ) - 1; omega⟩, h2⟩

theorem third_cov (hP : 0 < s.P) {i j k : ℤ} (h : s.all i j k) : ∃ p < s.P, (s.third p).has i j k := by
  obtain ⟨p, hp, h1, h2⟩ := split_cover hP s.nfast s.nmid h.1 h.2.1
  exact ⟨p, hp, h1, h2, ⟨h.2.2.1, by have := h.2.2.2; show k ≤ (s.nslow : ℤ) - 1; omega⟩⟩

theorem first_sub (hP : 0 < s.P) (ht : s.Tiled) {p : ℕ} (hp : p < s.P) {i j k : ℤ} (h : (s.first p).has i j k) : s.all i j k := by
  by_cases hpre : s.pre
  · unfold first at h
    rw [if_pos hpre] at h
    obtain ⟨⟨h1, h2⟩, ⟨h3, h4⟩, ⟨h5, h6⟩⟩ := h
    simp only at h1 h2 h3 h4 h5 h6
    have r1 := share_range (n := s.nmid) (ip_lt hP hp).1
    have r2 := share_range (n := s.nslow) (ip_lt hP hp).2
    refine ⟨⟨?_, ?_⟩, ⟨?_, ?_⟩, ⟨?_, ?_⟩⟩ <;> omega
  · unfold first at h
    rw [if_neg hpre] at h
    exact ht.sub p hp i j k h

theorem second_sub (hP : 0 < s.P) {p : ℕ} (hp : p < s.P) {i j k : ℤ} (h : (s.second p).has i j k) : s.all i j k := by
  obtain ⟨⟨h1, h2⟩, ⟨h3, h4⟩, ⟨h5, h6⟩⟩ := h
  simp only [second] at h1 h2 h3 h4 h5 h6
  have r1 := share_range (n := s.nfast) (ip_lt hP hp).1
  have r2 := share_range (n := s.nslow) (ip_lt hP hp).2
  refine ⟨⟨?_, ?_⟩, ⟨?_, ?_⟩, ⟨?_, ?_⟩⟩ <;> omega

theorem third_sub (hP : 0 < s.P) {p : ℕ} (hp : p < s.P) {i j k : ℤ} (h : (s.third p).has i j k) : s.all i j k := by
  obtain ⟨⟨h1, h2⟩, ⟨h3, h4⟩, ⟨h5, h6⟩⟩ := h
  simp only [third] at h1 h2 h3 h4 h5 h6
  have r1 := share_range (n := s.nfast) (ip_lt hP hp).1
  have r2 := share_range (n := s.nmid) (ip_lt hP hp).2
  refine ⟨⟨?_, ?_⟩, ⟨?_, ?_⟩, ⟨?_, ?_⟩⟩ <;> omega

theorem first_line (s : Setup) {p : ℕ} (hp : p < s.P) : (s.first p).ilo = 0 ∧ (s.first p).ihi = (s.nfast : ℤ) - 1 := by
  unfold first
  by_cases hpre : s.pre
  · rw [if_pos hpre]; exact ⟨rfl, rfl⟩
  · rw [if_neg hpre]
    unfold pre at hpre
    push Not at hpre
    exact ⟨(hpre p hp).1, (hpre p hp).2⟩

end Setup

/-! ## One redistribution and one set of transforms -/

theorem rot_has (e : Ext) (i j k : ℤ) : e.rot.has j k i ↔ e.has i j k := by
  unfold Ext.has Ext.rot; simp only; tauto

theorem place_rot (e : Ext) (i j k : ℤ) : place 1 e i j k = place 0 e.rot j k i := by
  simp [place, Ext.rot, Ext.isize, Ext.jsize, Ext.ksize]

theorem holds_rot {nq : ℕ} {e : Ext} {A : ℤ → ℤ → ℤ → ℕ → D} {m : Mem D} (h : Holds nq 1 e A m) : Holds nq 0 e.rot (fun j k i => A i j k) m := by
  intro j k i hh c hc
  rw [← place_rot]
  exact h i j k ((rot_has e i j k).mp hh) c hc

theorem get_set (b : Bufs D) (t : Bool) (m : Mem D) : (b.set t m).get t = m := by cases t <;> rfl

theorem remapAll_correct (P perm : ℕ) (ins outs : ℕ → Ext) (cur tgt : ℕ → Bool) (scr : ℕ → Mem D) (ord : ℕ → List ℕ) (b : ℕ → Bufs D)
    (A : ℤ → ℤ → ℤ → ℕ → D) (hin : ∀ p < P, Holds 2 0 (ins p) A ((b p).get (cur p)))
    (hcov : ∀ p < P, ∀ i j k, (outs p).has i j k → ∃ q < P, (ins q).has i j k)
    (hord : ∀ p < P, (ord p).Perm (List.range (others RecvRec.proc p (recvs 2 perm P ins outs p)).length)) :
    ∃ b', remapAll P perm ins outs cur tgt scr ord b = some b' ∧ ∀ p < P, Holds 2 perm (outs p) A ((b' p).get (tgt p)) := by
  have key : ∀ p < P, ∃ m, remap 2 perm P ins outs (fun q => (b q).get (cur q)) ((b p).get (tgt p)) (scr p) (ord p) p = some m
      ∧ Holds 2 perm (outs p) A m := by
    intro p hp
    obtain ⟨m, h1, h2, -⟩ := remap_correct 2 perm hp ins outs A (fun q => (b q).get (cur q)) ((b p).get (tgt p)) (scr p) (ord p) hin (hcov p hp) (hord p hp)
    exact ⟨m, h1, h2⟩
  have hall : ∀ p < P, (remap 2 perm P ins outs (fun q => (b q).get (cur q)) ((b p).get (tgt p)) (scr p) (ord p) p).isSome := by
    intro p hp
    obtain ⟨m, h1, -⟩ := key p hp
    rw [h1]; rfl
  refine ⟨_, by simp only [remapAll]; rw [if_pos hall], fun p hp => ?_⟩
  obtain ⟨m, h1, h2⟩ := key p hp
  rw [get_set, h1]
  exact h2

/-- What the transforms of `cnt` lines do to a box that has the whole axis. -/
theorem fftw_holds {T : ℕ → (ℕ → ℕ → D) → ℕ → ℕ → D} (hT : Local T) {n : ℕ} {e : Ext} (h0 : e.ilo = 0) (h1 : e.ihi = (n : ℤ) - 1) (cnt : ℤ)
    {A : ℤ → ℤ → ℤ → ℕ → D} {m : Mem D} (h : Holds 2 0 e A m) :
    Holds 2 0 e (fun i j k c => if (k - e.klo) * e.jsize + (j - e.jlo) < cnt then T n (fun a c => A a j k c) i.toNat c else A i j k c)
      (fftw T n cnt m) := by
  intro i j k hh c hc
  obtain ⟨⟨hi1, hi2⟩, hj, hk⟩ := hh
  have si : e.isize = n := by unfold Ext.isize; omega
  have hi1' : 0 ≤ i := by omega
  have hi2' : i < n := by omega
  set l := (k - e.klo) * e.jsize + (j - e.jlo) with hl
  have hl0 : 0 ≤ l := by
    have : 0 ≤ e.jsize := by unfold Ext.jsize; omega
    have := mul_nonneg (show 0 ≤ k - e.klo by omega) this
    omega
  have hp : place 0 e i j k = l * n + i := by simp only [place, if_true, si, h0, hl]; ring
  have hn : (0 : ℤ) < n := by omega
  have hc2 : (c : ℤ) < 2 := by exact_mod_cast hc
  have e1 : (2 * (l * n + i) + (c : ℤ)) / 2 = l * n + i := by omega
  have e2 : (2 * (l * n + i) + (c : ℤ)) % 2 = c := by omega
  have e3 : (l * n + i) / (n : ℤ) = l := by rw [Int.add_comm, Int.add_mul_ediv_right _ _ (by omega), Int.ediv_eq_zero_of_lt hi1' hi2']; omega
  have e4 : (l * n + i) % (n : ℤ) = i := by rw [Int.add_comm, Int.add_mul_emod_self_right]; exact Int.emod_eq_of_lt hi1' hi2'
  unfold fftw
  push_cast
  rw [hp, e1, e2, e3, e4]
  have hln : 0 ≤ l * n := mul_nonneg hl0 hn.le
  by_cases hcnt : l < cnt
  · have : (l + 1) * n ≤ cnt * n := mul_le_mul_of_nonneg_right (by omega) hn.le
    have h5 : l * n + i < cnt * n := by nlinarith
    rw [if_pos ⟨by omega, by omega⟩, if_pos hcnt, Int.toNat_natCast]
    apply hT n _ _ _ i.toNat (by omega) c hc
    intro a ha c' hc'
    have := h a j k ⟨⟨by omega, by omega⟩, hj, hk⟩ c' hc'
    rw [← this]
    congr 1
    simp only [place, if_true, si, h0, hl]
    push_cast
    ring
  · have : cnt * n ≤ l * n := mul_le_mul_of_nonneg_right (by omega) hn.le
    rw [if_neg (by omega), if_neg hcnt]
    have := h i j k ⟨⟨hi1, hi2⟩, hj, hk⟩ c hc
    rw [hp] at this
    exact_mod_cast this

theorem fftw_full {T : ℕ → (ℕ → ℕ → D) → ℕ → ℕ → D} (hT : Local T) {n : ℕ} {e : Ext} (h0 : e.ilo = 0) (h1 : e.ihi = (n : ℤ) - 1) {cnt : ℤ}
    (hcnt : cnt = e.jsize * e.ksize) {A : ℤ → ℤ → ℤ → ℕ → D} {m : Mem D} (h : Holds 2 0 e A m) :
    Holds 2 0 e (alongI T n A) (fftw T n cnt m) := by
  intro i j k hh c hc
  rw [fftw_holds hT h0 h1 cnt h i j k hh c hc]
  obtain ⟨hi, hj, hk⟩ := hh
  simp only
  rw [if_pos]
  · rfl
  · have sj : e.jsize = e.jhi - e.jlo + 1 := rfl
    have sk : e.ksize = e.khi - e.klo + 1 := rfl
    have := digit_bound (n := e.jsize) (m := e.ksize) (a := k - e.klo) (b := j - e.jlo) (by omega) (by omega) (by omega) (by omega)
    rw [hcnt, mul_comm e.jsize]; exact this.2

theorem cnt1_eq (s : Setup) (hf : 0 < s.nfast) (p : ℕ) : s.cnt1 p = (s.first p).jsize * (s.first p).ksize := by
  unfold Setup.cnt1 Setup.total1 Ext.jsize Ext.ksize
  rw [mul_assoc, Int.mul_ediv_cancel_left _ (by omega)]

/-- All but the transforms along the last axis and the last redistribution. -/
theorem fft3d_front {T : ℕ → (ℕ → ℕ → D) → ℕ → ℕ → D} (hT : Local T) (s : Setup) (hP : 0 < s.P) (hf : 0 < s.nfast) (ht : s.Tiled)
    (hc : ∀ p < s.P, s.cnt2 p = (s.second p).ksize * (s.second p).isize)
    (scr : ℕ → ℕ → Mem D) (ord : ℕ → ℕ → List ℕ) (ho : Arrive s ord) (A : ℤ → ℤ → ℤ → ℕ → D) (b : ℕ → Bufs D)
    (hb : ∀ p < s.P, Holds 2 0 (s.box p) A (b p).user) :
    ∃ b5, fft3d T s scr ord b = remapAll s.P 1 (fun p => (s.third p).rot.rot) (fun p => (s.box p).rot.rot) s.target3 (fun _ => false) (scr 3) (ord 3)
        (fftwAll T s.nslow s.cnt3 s.target3 b5)
      ∧ ∀ p < s.P, Holds 2 0 (s.third p).rot.rot (fun k i j => alongJ T s.nmid (alongI T s.nfast A) i j k) ((b5 p).get (s.target3 p)) := by
  -- the first redistribution
  obtain ⟨b1, hb1, h1⟩ : ∃ b1, (if s.pre then remapAll s.P 0 s.box s.first (fun _ => false) s.target1 (scr 0) (ord 0) b else some b) = some b1
      ∧ ∀ p < s.P, Holds 2 0 (s.first p) A ((b1 p).get ((if s.pre then s.target1 else fun _ => false) p)) := by
    by_cases hpre : s.pre
    · simp only [if_pos hpre]
      exact remapAll_correct s.P 0 s.box s.first (fun _ => false) s.target1 (scr 0) (ord 0) b A hb
        (fun p hp i j k h => ht.cov i j k (Setup.first_sub hP ht hp h)) ho.o0
    · simp only [if_neg hpre]
      refine ⟨b, rfl, fun p hp => ?_⟩
      have : s.first p = s.box p := by unfold Setup.first; rw [if_neg hpre]
      rw [this]; exact hb p hp
  -- the first transforms
  have h2 : ∀ p < s.P, Holds 2 0 (s.first p) (alongI T s.nfast A)
      ((fftwAll T s.nfast s.cnt1 (if s.pre then s.target1 else fun _ => false) b1 p).get ((if s.pre then s.target1 else fun _ => false) p)) := by
    intro p hp
    unfold fftwAll
    rw [get_set]
    exact fftw_full hT (s.first_line hp).1 (s.first_line hp).2 (cnt1_eq s hf p) (h1 p hp)
  obtain ⟨b3, hb3, h3⟩ := remapAll_correct s.P 1 s.first s.second (if s.pre then s.target1 else fun _ => false) s.target2 (scr 1) (ord 1)
    (fftwAll T s.nfast s.cnt1 (if s.pre then s.target1 else fun _ => false) b1) (alongI T s.nfast A) h2
    (fun p hp i j k h => Setup.first_cov hP ht (Setup.second_sub hP hp h)) ho.o1
  have h4 : ∀ p < s.P, Holds 2 0 (s.second p).rot (fun j k i => alongJ T s.nmid (alongI T s.nfast A) i j k)
      ((fftwAll T s.nmid s.cnt2 s.target2 b3 p).get (s.target2 p)) := by
    intro p hp
    unfold fftwAll
    rw [get_set]
    exact fftw_full hT (e := (s.second p).rot) rfl rfl (hc p hp) (holds_rot (h3 p hp))
  obtain ⟨b5, hb5, h5⟩ := remapAll_correct s.P 1 (fun p => (s.second p).rot) (fun p => (s.third p).rot) s.target2 s.target3 (scr 2) (ord 2)
    (fftwAll T s.nmid s.cnt2 s.target2 b3) (fun j k i => alongJ T s.nmid (alongI T s.nfast A) i j k) h4
    (fun p hp j k i h => by
      obtain ⟨q, hq, hh⟩ := Setup.second_cov hP (Setup.third_sub hP hp ((rot_has _ i j k).mp h))
      exact ⟨q, hq, (rot_has _ i j k).mpr hh⟩) ho.o2
  refine ⟨b5, ?_, fun p hp => holds_rot (h5 p hp)⟩
  unfold fft3d
  simp only [hb1, Option.bind_eq_bind, Option.bind_some, hb3, hb5]

/-- **The decomposed transform.**  If each process transforms as many lines as it owns, `ath_3d_fft` leaves on each process its part of the
transform of the whole data set. -/
theorem fft3d_correct_partial {T : ℕ → (ℕ → ℕ → D) → ℕ → ℕ → D} (hT : Local T) (s : Setup) (hP : 0 < s.P) (hf : 0 < s.nfast) (ht : s.Tiled)
    (hc : s.Counts) (scr : ℕ → ℕ → Mem D) (ord : ℕ → ℕ → List ℕ) (ho : Arrive s ord) (A : ℤ → ℤ → ℤ → ℕ → D) (b : ℕ → Bufs D)
    (hb : ∀ p < s.P, Holds 2 0 (s.box p) A (b p).user) :
    ∃ b', fft3d T s scr ord b = some b' ∧ ∀ p < s.P, Holds 2 0 (s.box p) (trans3 T s A) (b' p).user := by
  obtain ⟨b5, e, h5⟩ := fft3d_front hT s hP hf ht (fun p hp => (hc p hp).1) scr ord ho A b hb
  have h6 : ∀ p < s.P, Holds 2 0 (s.third p).rot.rot (fun k i j => trans3 T s A i j k) ((fftwAll T s.nslow s.cnt3 s.target3 b5 p).get (s.target3 p)) := by
    intro p hp
    unfold fftwAll
    rw [get_set]
    exact fftw_full hT (e := (s.third p).rot.rot) rfl rfl (hc p hp).2 (h5 p hp)
  obtain ⟨b7, hb7, h7⟩ := remapAll_correct s.P 1 (fun p => (s.third p).rot.rot) (fun p => (s.box p).rot.rot) s.target3 (fun _ => false) (scr 3) (ord 3)
    (fftwAll T s.nslow s.cnt3 s.target3 b5) (fun k i j => trans3 T s A i j k) h6
    (fun p hp k i j h => by
      obtain ⟨q, hq, hh⟩ := Setup.third_cov hP (ht.sub p hp i j k (by
        rw [← rot_has (s.box p) i j k, ← rot_has (s.box p).rot j k i]; exact h))
      exact ⟨q, hq, by rw [rot_has (s.third q).rot j k i, rot_has (s.third q) i j k]; exact hh⟩) ho.o3
  exact ⟨b7, by rw [e]; exact hb7, fun p hp => holds_rot (h7 p hp)⟩

/-! ## When the counts are right -/

theorem cnt2_own (s : Setup) (hm : 0 < s.nmid) (p : ℕ) : s.total2 p / s.nmid = (s.second p).ksize * (s.second p).isize := by
  have e : s.total2 p = s.nmid * ((s.second p).ksize * (s.second p).isize) := by
    unfold Setup.total2 Ext.isize Ext.ksize; ring
  rw [e, Int.mul_ediv_cancel_left _ (by omega)]

theorem cnt3_own (s : Setup) (hs : 0 < s.nslow) (p : ℕ) : s.total3 p / s.nslow = (s.third p).isize * (s.third p).jsize := by
  have e : s.total3 p = s.nslow * ((s.third p).isize * (s.third p).jsize) := by
    unfold Setup.total3 Ext.isize Ext.jsize; ring
  rw [e, Int.mul_ediv_cancel_left _ (by omega)]

/-- Three different lengths: each direction has a plan of its own. -/
theorem counts_distinct (s : Setup) (hm : 0 < s.nmid) (hs : 0 < s.nslow) (h1 : s.nmid ≠ s.nfast) (h2 : s.nslow ≠ s.nfast) (h3 : s.nslow ≠ s.nmid) :
    s.Counts := by
  intro p _
  unfold Setup.cnt3 Setup.cnt2
  rw [if_neg h1, if_neg h2, if_neg h3]
  exact ⟨cnt2_own s hm p, cnt3_own s hs p⟩

/-- With a first redistribution the plans may be shared unless the first and the last length agree and the middle one differs. -/
theorem counts_pre (s : Setup) (hf : 0 < s.nfast) (hm : 0 < s.nmid) (hs : 0 < s.nslow) (hpre : s.pre) (h : s.nslow = s.nfast → s.nmid = s.nfast) :
    s.Counts := by
  intro p _
  have e1 := cnt1_eq s hf p
  have ej : (s.first p).jsize = hi s.nmid s.np1 (s.ip1 p) - lo s.nmid s.np1 (s.ip1 p) + 1 := by
    unfold Setup.first Ext.jsize; rw [if_pos hpre]
  have ek : (s.first p).ksize = hi s.nslow s.np2 (s.ip2 p) - lo s.nslow s.np2 (s.ip2 p) + 1 := by
    unfold Setup.first Ext.ksize; rw [if_pos hpre]
  have h2 : s.cnt2 p = (s.second p).ksize * (s.second p).isize := by
    unfold Setup.cnt2
    split
    · rename_i hl
      rw [e1, ej, ek, hl]
      simp only [Ext.isize, Ext.ksize, Setup.second]; ring
    · exact cnt2_own s hm p
  refine ⟨h2, ?_⟩
  unfold Setup.cnt3
  split
  · rename_i hl
    rw [e1, ej, ek, hl, h hl]
    simp only [Ext.isize, Ext.jsize, Setup.third, h hl]
  · split
    · rename_i hl
      rw [h2]
      simp only [Ext.isize, Ext.jsize, Ext.ksize, Setup.second, Setup.third, hl]; ring
    · exact cnt3_own s hs p

theorem lo_even {n np ip : ℕ} (h : np ∣ n) (hp : 0 < np) : hi n np ip - lo n np ip + 1 = (n / np : ℕ) := by
  obtain ⟨m, rfl⟩ := h
  unfold hi lo
  have e1 : (ip + 1) * (np * m) / np = (ip + 1) * m := by
    rw [show (ip + 1) * (np * m) = np * ((ip + 1) * m) by ring, Nat.mul_div_cancel_left _ hp]
  have e2 : ip * (np * m) / np = ip * m := by
    rw [show ip * (np * m) = np * (ip * m) by ring, Nat.mul_div_cancel_left _ hp]
  rw [e1, e2, Nat.mul_div_cancel_left _ hp]
  push_cast; ring

/-- A decomposition that divides every axis evenly among the processes, and equal boxes. -/
structure Setup.Even (s : Setup) : Prop where
  d11 : s.np1 ∣ s.nfast
  d12 : s.np1 ∣ s.nmid
  d22 : s.np2 ∣ s.nmid
  d23 : s.np2 ∣ s.nslow
  vol : ¬ s.pre → ∀ p < s.P, s.P * ((s.box p).jsize * (s.box p).ksize) = (s.nmid * s.nslow : ℕ)

theorem counts_even (s : Setup) (hP : 0 < s.P) (hf : 0 < s.nfast) (hm : 0 < s.nmid) (hs : 0 < s.nslow) (he : s.Even) : s.Counts := by
  intro p hp
  obtain ⟨q1, q2⟩ := Setup.np_pos (s := s) hP
  have hPe := Setup.np_mul (s := s) hP
  obtain ⟨a, ha⟩ := he.d11
  obtain ⟨b, hb⟩ := he.d12
  obtain ⟨c, hcc⟩ := he.d22
  obtain ⟨d, hd⟩ := he.d23
  have sh1 : ∀ ip, hi s.nfast s.np1 ip - lo s.nfast s.np1 ip + 1 = (a : ℤ) := fun ip => by
    rw [lo_even he.d11 q1, ha, Nat.mul_div_cancel_left _ q1]
  have sh2 : ∀ ip, hi s.nmid s.np1 ip - lo s.nmid s.np1 ip + 1 = (b : ℤ) := fun ip => by
    rw [lo_even he.d12 q1, hb, Nat.mul_div_cancel_left _ q1]
  have sh3 : ∀ ip, hi s.nmid s.np2 ip - lo s.nmid s.np2 ip + 1 = (c : ℤ) := fun ip => by
    rw [lo_even he.d22 q2, hcc, Nat.mul_div_cancel_left _ q2]
  have sh4 : ∀ ip, hi s.nslow s.np2 ip - lo s.nslow s.np2 ip + 1 = (d : ℤ) := fun ip => by
    rw [lo_even he.d23 q2, hd, Nat.mul_div_cancel_left _ q2]
  have hPz : (s.P : ℤ) ≠ 0 := by omega
  have hPz' : (s.P : ℤ) = s.np1 * s.np2 := by exact_mod_cast hPe.symm
  -- lines of the first transforms
  have e1 : (s.P : ℤ) * s.cnt1 p = s.nmid * s.nslow := by
    rw [cnt1_eq s hf p]
    by_cases hpre : s.pre
    · have ej : (s.first p).jsize = b := by unfold Setup.first Ext.jsize; rw [if_pos hpre]; exact sh2 _
      have ek : (s.first p).ksize = d := by unfold Setup.first Ext.ksize; rw [if_pos hpre]; exact sh4 _
      have hzb : (s.nmid : ℤ) = s.np1 * b := by exact_mod_cast hb
      have hzd : (s.nslow : ℤ) = s.np2 * d := by exact_mod_cast hd
      rw [ej, ek, hPz', hzb, hzd]
      ring
    · have : s.first p = s.box p := by unfold Setup.first; rw [if_neg hpre]
      rw [this]
      have := he.vol hpre p hp
      push_cast at this
      exact this
  have e2 : (s.second p).ksize * (s.second p).isize = d * a := by
    simp only [Ext.isize, Ext.ksize, Setup.second]; rw [sh1, sh4]
  have e3 : (s.third p).isize * (s.third p).jsize = a * c := by
    simp only [Ext.isize, Ext.jsize, Setup.third]; rw [sh1, sh3]
  have hza : (s.nfast : ℤ) = s.np1 * a := by exact_mod_cast ha
  have hzb : (s.nmid : ℤ) = s.np1 * b := by exact_mod_cast hb
  have hzc : (s.nmid : ℤ) = s.np2 * c := by exact_mod_cast hcc
  have hzd : (s.nslow : ℤ) = s.np2 * d := by exact_mod_cast hd
  have h2 : s.cnt2 p = d * a := by
    unfold Setup.cnt2
    split
    · rename_i hl
      apply mul_left_cancel₀ hPz
      have hl' : (s.nmid : ℤ) = s.nfast := by exact_mod_cast hl
      rw [e1, hl', hPz', hza, hzd]; ring
    · rw [cnt2_own s hm p, e2]
  refine ⟨by rw [h2, e2], ?_⟩
  rw [e3]
  unfold Setup.cnt3
  split
  · rename_i hl
    apply mul_left_cancel₀ hPz
    have hl' : (s.nslow : ℤ) = s.nfast := by exact_mod_cast hl
    rw [e1, hl', hPz', hza, hzc]; ring
  · split
    · rename_i hl
      rw [h2]
      apply mul_left_cancel₀ (show (s.np2 : ℤ) ≠ 0 by omega)
      have hl' : (s.nslow : ℤ) = s.nmid := by exact_mod_cast hl
      rw [show (s.np2 : ℤ) * (d * a) = (s.np2 * d) * a by ring, ← hzd, hl', hzc]; ring
    · rw [cnt3_own s hs p, e3]

/-- One process alone. -/
theorem counts_one (s : Setup) (hP : s.P = 1) (hf : 0 < s.nfast) (hm : 0 < s.nmid) (hs : 0 < s.nslow)
    (hbox : s.box 0 = ⟨0, (s.nfast : ℤ) - 1, 0, (s.nmid : ℤ) - 1, 0, (s.nslow : ℤ) - 1⟩) : s.Counts := by
  have hb : bifactor s.P = (1, 1) := by rw [hP, bifactor_of (r := 1) (by omega)]; decide
  apply counts_even s (by omega) hf hm hs
  have n1 : s.np1 = 1 := by unfold Setup.np1; rw [hb]
  have n2 : s.np2 = 1 := by unfold Setup.np2; rw [hb]
  refine ⟨by rw [n1]; exact one_dvd _, by rw [n1]; exact one_dvd _, by rw [n2]; exact one_dvd _, by rw [n2]; exact one_dvd _, fun _ p hp => ?_⟩
  have : p = 0 := by omega
  subst this
  rw [hP, hbox]
  simp [Ext.jsize, Ext.ksize]

end Athena.Fft
