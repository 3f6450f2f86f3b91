import Verif.Fft.Fft2d
import Verif.Fft.Fft3dDft

/-!
# The decomposed transform in two dimensions

`fft2d_correct_partial`, `ath_2d_fft_partial`: when each process transforms as many lines as it owns, the result on every process is its part of
the transform of the whole data set.  `counts2_pre`, `counts2_distinct`, `counts2_even`: when that is so.  `fft2d_false`: it is not always so.
-/

namespace Athena.Fft
variable {D : Type _}

/-! ## Specification -/

/-- The element `(i, j)` belongs to the box. -/
def Ext2.has (e : Ext2) (i j : ℤ) : Prop := (e.ilo ≤ i ∧ i ≤ e.ihi) ∧ (e.jlo ≤ j ∧ j ≤ e.jhi)

/-- The place of an element among those of its box: storage order `permute`, remap_2d.c:124-126. -/
def place2 (perm : ℕ) (e : Ext2) (i j : ℤ) : ℤ :=
  if perm = 0 then (j - e.jlo) * e.isize + (i - e.ilo) else (i - e.ilo) * e.jsize + (j - e.jlo)

/-- The array `m` of a process holds the part of the data set `A` that lies in its box. -/
def Holds2 (nqty perm : ℕ) (e : Ext2) (A : ℤ → ℤ → ℕ → D) (m : Mem D) : Prop :=
  ∀ i j, e.has i j → ∀ c < nqty, m (nqty * place2 perm e i j + c) = A i j c

/-- The transform of the whole data set along its first and second axis. -/
def alongI2 (T : ℕ → (ℕ → ℕ → D) → ℕ → ℕ → D) (n : ℕ) (A : ℤ → ℤ → ℕ → D) : ℤ → ℤ → ℕ → D := fun i j c => T n (fun a c => A a j c) i.toNat c
def alongJ2 (T : ℕ → (ℕ → ℕ → D) → ℕ → ℕ → D) (n : ℕ) (A : ℤ → ℤ → ℕ → D) : ℤ → ℤ → ℕ → D := fun i j c => T n (fun a c => A i a c) j.toNat c

/-- The transform of the whole data set. -/
def trans2 (T : ℕ → (ℕ → ℕ → D) → ℕ → ℕ → D) (s : Setup2) (A : ℤ → ℤ → ℕ → D) : ℤ → ℤ → ℕ → D := alongJ2 T s.nslow (alongI2 T s.nfast A)

/-- The data set. -/
def Setup2.all (s : Setup2) (i j : ℤ) : Prop := (0 ≤ i ∧ i < s.nfast) ∧ (0 ≤ j ∧ j < s.nslow)

/-- The boxes lie in the data set and cover it. -/
structure Setup2.Tiled (s : Setup2) : Prop where
  sub : ∀ p < s.P, ∀ i j, (s.box p).has i j → s.all i j
  cov : ∀ i j, s.all i j → ∃ p < s.P, (s.box p).has i j

/-- The messages of every redistribution all arrive, in any order. -/
structure Arrive2 (s : Setup2) (ord : ℕ → ℕ → List ℕ) : Prop where
  o0 : ∀ p < s.P, (ord 0 p).Perm (List.range (others RecvRec2.proc p (recvs2 2 0 s.P s.box s.first p)).length)
  o1 : ∀ p < s.P, (ord 1 p).Perm (List.range (others RecvRec2.proc p (recvs2 2 1 s.P s.first s.second p)).length)
  o2 : ∀ p < s.P, (ord 2 p).Perm (List.range (others RecvRec2.proc p (recvs2 2 1 s.P (fun p => (s.second p).swap) (fun p => (s.box p).swap) p)).length)

/-- Each process transforms as many lines as it owns. -/
def Setup2.Counts (s : Setup2) : Prop := ∀ p < s.P, s.cnt2 p = (s.second p).isize

/-! ## One redistribution and one set of transforms -/

theorem up_has (e : Ext2) (i j k : ℤ) : e.up.has i j k ↔ e.has i j ∧ k = 0 := by
  unfold Ext.has Ext2.has Ext2.up
  simp only
  omega

theorem place_up {perm : ℕ} (hp : perm = 0 ∨ perm = 1) (e : Ext2) (i j : ℤ) : place perm e.up i j 0 = place2 perm e i j := by
  rcases hp with rfl | rfl
  · simp only [place, place2, if_true, up_i, up_j]
    simp only [Ext2.up]; ring
  · simp only [place, place2, one_ne_zero, if_false, if_true, up_i, up_j, up_k]
    simp only [Ext2.up]; ring

/-- A data set as one of one plane. -/
def lift (A : ℤ → ℤ → ℕ → D) : ℤ → ℤ → ℤ → ℕ → D := fun i j _ c => A i j c

theorem holds_up {nq perm : ℕ} (hp : perm = 0 ∨ perm = 1) (e : Ext2) (A : ℤ → ℤ → ℕ → D) (m : Mem D) :
    Holds nq perm e.up (lift A) m ↔ Holds2 nq perm e A m := by
  constructor
  · intro h i j hh c hc
    rw [← place_up hp]
    exact h i j 0 ((up_has e i j 0).mpr ⟨hh, rfl⟩) c hc
  · intro h i j k hh c hc
    obtain ⟨hx, rfl⟩ := (up_has e i j k).mp hh
    rw [place_up hp]
    exact h i j hx c hc

/-- **The redistribution in two dimensions.** -/
theorem remap2_correct (nq : ℕ) {perm : ℕ} (hp : perm = 0 ∨ perm = 1) {P me : ℕ} (hm : me < P) (ins outs : ℕ → Ext2) (A : ℤ → ℤ → ℕ → D)
    (data : ℕ → Mem D) (out scratch : Mem D) (order : List ℕ) (hin : ∀ q < P, Holds2 nq 0 (ins q) A (data q))
    (hcov : ∀ i j, (outs me).has i j → ∃ q < P, (ins q).has i j)
    (hord : order.Perm (List.range (others RecvRec2.proc me (recvs2 nq perm P ins outs me)).length)) :
    ∃ m, remap2 nq perm P ins outs data out scratch order me = some m ∧ Holds2 nq perm (outs me) A m
      ∧ ∀ x : ℤ, x < 0 ∨ nq * ((outs me).isize * (outs me).jsize) ≤ x → m x = out x := by
  obtain ⟨m, h1, h2, h3⟩ := remap_correct nq perm hm (fun p => (ins p).up) (fun p => (outs p).up) (lift A) data out scratch order
    (fun q hq => (holds_up (Or.inl rfl) _ _ _).mpr (hin q hq))
    (fun i j k h => by
      obtain ⟨hh, rfl⟩ := (up_has _ i j k).mp h
      obtain ⟨q, hq, hx⟩ := hcov i j hh
      exact ⟨q, hq, (up_has _ i j 0).mpr ⟨hx, rfl⟩⟩)
    (by rw [recvs_up nq hp, others_map _ RecvRec.proc RecvRec2.proc (fun _ => rfl), List.length_map]; exact hord)
  refine ⟨m, by rw [← remap_up nq hp]; exact h1, (holds_up hp _ _ _).mp h2, fun x hx => h3 x ?_⟩
  simp only [up_i, up_j, up_k, mul_one]
  exact hx

theorem remapAll2_correct {P perm : ℕ} (hp : perm = 0 ∨ perm = 1) (ins outs : ℕ → Ext2) (cur tgt : ℕ → Bool) (scr : ℕ → Mem D) (ord : ℕ → List ℕ)
    (b : ℕ → Bufs D) (A : ℤ → ℤ → ℕ → D) (hin : ∀ p < P, Holds2 2 0 (ins p) A ((b p).get (cur p)))
    (hcov : ∀ p < P, ∀ i j, (outs p).has i j → ∃ q < P, (ins q).has i j)
    (hord : ∀ p < P, (ord p).Perm (List.range (others RecvRec2.proc p (recvs2 2 perm P ins outs p)).length)) :
    ∃ b', remapAll2 P perm ins outs cur tgt scr ord b = some b' ∧ ∀ p < P, Holds2 2 perm (outs p) A ((b' p).get (tgt p)) := by
  have key : ∀ p < P, ∃ m, remap2 2 perm P ins outs (fun q => (b q).get (cur q)) ((b p).get (tgt p)) (scr p) (ord p) p = some m
      ∧ Holds2 2 perm (outs p) A m := by
    intro p hpP
    obtain ⟨m, h1, h2, -⟩ := remap2_correct 2 hp hpP ins outs A (fun q => (b q).get (cur q)) ((b p).get (tgt p)) (scr p) (ord p) hin (hcov p hpP) (hord p hpP)
    exact ⟨m, h1, h2⟩
  have hall : ∀ p < P, (remap2 2 perm P ins outs (fun q => (b q).get (cur q)) ((b p).get (tgt p)) (scr p) (ord p) p).isSome := by
    intro p hpP
    obtain ⟨m, h1, -⟩ := key p hpP
    rw [h1]; rfl
  refine ⟨_, by simp only [remapAll2]; rw [if_pos hall], fun p hpP => ?_⟩
  obtain ⟨m, h1, h2⟩ := key p hpP
  rw [get_set, h1]
  exact h2

theorem fftw_holds2 {T : ℕ → (ℕ → ℕ → D) → ℕ → ℕ → D} (hT : Local T) {n : ℕ} {e : Ext2} (h0 : e.ilo = 0) (h1 : e.ihi = (n : ℤ) - 1) (cnt : ℤ)
    {A : ℤ → ℤ → ℕ → D} {m : Mem D} (h : Holds2 2 0 e A m) :
    Holds2 2 0 e (fun i j c => if j - e.jlo < cnt then T n (fun a c => A a j c) i.toNat c else A i j c) (fftw T n cnt m) := by
  have k := fftw_holds hT (e := e.up) h0 h1 cnt ((holds_up (Or.inl rfl) e A m).mpr h)
  intro i j hh c hc
  have := k i j 0 ((up_has e i j 0).mpr ⟨hh, rfl⟩) c hc
  rw [place_up (Or.inl rfl)] at this
  rw [this]
  have e0 : (0 - e.up.klo) * e.up.jsize + (j - e.up.jlo) = j - e.jlo := by
    simp only [Ext2.up]; ring
  simp only [e0]
  rfl

theorem fftw_full2 {T : ℕ → (ℕ → ℕ → D) → ℕ → ℕ → D} (hT : Local T) {n : ℕ} {e : Ext2} (h0 : e.ilo = 0) (h1 : e.ihi = (n : ℤ) - 1) {cnt : ℤ}
    (hcnt : cnt = e.jsize) {A : ℤ → ℤ → ℕ → D} {m : Mem D} (h : Holds2 2 0 e A m) :
    Holds2 2 0 e (alongI2 T n A) (fftw T n cnt m) := by
  intro i j hh c hc
  rw [fftw_holds2 hT h0 h1 cnt h i j hh c hc]
  have : e.jsize = e.jhi - e.jlo + 1 := rfl
  have := hh.2
  simp only
  rw [if_pos (by omega)]
  rfl

theorem swap_has (e : Ext2) (i j : ℤ) : e.swap.has j i ↔ e.has i j := by
  unfold Ext2.has Ext2.swap; simp only; tauto

theorem holds_swap {nq : ℕ} {e : Ext2} {A : ℤ → ℤ → ℕ → D} {m : Mem D} (h : Holds2 nq 1 e A m) : Holds2 nq 0 e.swap (fun j i => A i j) m := by
  intro j i hh c hc
  exact h i j ((swap_has e i j).mp hh) c hc

theorem holds_swap' {nq : ℕ} {e : Ext2} {A : ℤ → ℤ → ℕ → D} {m : Mem D} (h : Holds2 nq 1 e.swap (fun j i => A i j) m) : Holds2 nq 0 e A m := by
  intro i j hh c hc
  exact h j i ((swap_has e i j).mpr hh) c hc

/-! ## The division of the axes -/

namespace Setup2
variable {s : Setup2}

theorem share_has {n P : ℕ} {x : ℤ} (hP : 0 < P) (hx : 0 ≤ x ∧ x < n) : ∃ p < P, lo n P p ≤ x ∧ x ≤ hi n P p := by
  obtain ⟨a, ha, a1, a2⟩ := share_cover n P x.toNat (by omega) hP
  exact ⟨a, ha, by omega, by omega⟩

theorem first_cov (hP : 0 < s.P) (ht : s.Tiled) {i j : ℤ} (h : s.all i j) : ∃ p < s.P, (s.first p).has i j := by
  by_cases hpre : s.pre
  · obtain ⟨p, hp, h1⟩ := share_has hP h.2
    refine ⟨p, hp, ?_⟩
    unfold first
    rw [if_pos hpre]
    exact ⟨⟨h.1.1, by have := h.1.2; show i ≤ (s.nfast : ℤ) - 1; omega⟩, h1⟩
  · unfold first
    simp only [if_neg hpre]
    exact ht.cov i j h

theorem second_cov (hP : 0 < s.P) {i j : ℤ} (h : s.all i j) : ∃ p < s.P, (s.second p).has i j := by
  obtain ⟨p, hp, h1⟩ := share_has hP h.1
  exact ⟨p, hp, h1, ⟨h.2.1, by have := h.2.2; show j ≤ (s.nslow : ℤ) - 1; omega⟩⟩

theorem first_sub (ht : s.Tiled) {p : ℕ} (hp : p < s.P) {i j : ℤ} (h : (s.first p).has i j) : s.all i j := by
  by_cases hpre : s.pre
  · unfold first at h
    rw [if_pos hpre] at h
    obtain ⟨⟨h1, h2⟩, ⟨h3, h4⟩⟩ := h
    simp only at h1 h2 h3 h4
    have r1 := share_range (n := s.nslow) hp
    refine ⟨⟨?_, ?_⟩, ⟨?_, ?_⟩⟩ <;> omega
  · unfold first at h
    rw [if_neg hpre] at h
    exact ht.sub p hp i j h

theorem second_sub {p : ℕ} (hp : p < s.P) {i j : ℤ} (h : (s.second p).has i j) : s.all i j := by
  obtain ⟨⟨h1, h2⟩, ⟨h3, h4⟩⟩ := h
  simp only [second] at h1 h2 h3 h4
  have r1 := share_range (n := s.nfast) hp
  refine ⟨⟨?_, ?_⟩, ⟨?_, ?_⟩⟩ <;> omega

theorem first_line (s : Setup2) {p : ℕ} (hp : p < s.P) : (s.first p).ilo = 0 ∧ (s.first p).ihi = (s.nfast : ℤ) - 1 := by
  unfold first
  by_cases hpre : s.pre
  · rw [if_pos hpre]; exact ⟨rfl, rfl⟩
  · rw [if_neg hpre]
    unfold pre at hpre
    push Not at hpre
    exact ⟨(hpre p hp).1, (hpre p hp).2⟩

end Setup2

theorem cnt1_eq2 (s : Setup2) (hf : 0 < s.nfast) (p : ℕ) : s.cnt1 p = (s.first p).jsize := by
  unfold Setup2.cnt1 Setup2.total1 Ext2.jsize
  rw [Int.mul_ediv_cancel_left _ (by omega)]

/-! ## The transform -/

/-- All but the transforms along the last axis and the last redistribution. -/
theorem fft2d_front {T : ℕ → (ℕ → ℕ → D) → ℕ → ℕ → D} (hT : Local T) (s : Setup2) (hP : 0 < s.P) (hf : 0 < s.nfast) (ht : s.Tiled)
    (scr : ℕ → ℕ → Mem D) (ord : ℕ → ℕ → List ℕ) (ho : Arrive2 s ord) (A : ℤ → ℤ → ℕ → D) (b : ℕ → Bufs D)
    (hb : ∀ p < s.P, Holds2 2 0 (s.box p) A (b p).user) :
    ∃ b3, fft2d T s scr ord b = remapAll2 s.P 1 (fun p => (s.second p).swap) (fun p => (s.box p).swap) s.target2 (fun _ => false) (scr 2) (ord 2)
        (fftwAll T s.nslow s.cnt2 s.target2 b3)
      ∧ ∀ p < s.P, Holds2 2 0 (s.second p).swap (fun j i => alongI2 T s.nfast A i j) ((b3 p).get (s.target2 p)) := by
  obtain ⟨b1, hb1, h1⟩ : ∃ b1, (if s.pre then remapAll2 s.P 0 s.box s.first (fun _ => false) s.target1 (scr 0) (ord 0) b else some b) = some b1
      ∧ ∀ p < s.P, Holds2 2 0 (s.first p) A ((b1 p).get ((if s.pre then s.target1 else fun _ => false) p)) := by
    by_cases hpre : s.pre
    · simp only [if_pos hpre]
      exact remapAll2_correct (Or.inl rfl) s.box s.first (fun _ => false) s.target1 (scr 0) (ord 0) b A hb
        (fun p hp i j h => ht.cov i j (Setup2.first_sub ht hp h)) ho.o0
    · simp only [if_neg hpre]
      refine ⟨b, rfl, fun p hp => ?_⟩
      have : s.first p = s.box p := by unfold Setup2.first; rw [if_neg hpre]
      rw [this]; exact hb p hp
  have h2 : ∀ p < s.P, Holds2 2 0 (s.first p) (alongI2 T s.nfast A)
      ((fftwAll T s.nfast s.cnt1 (if s.pre then s.target1 else fun _ => false) b1 p).get ((if s.pre then s.target1 else fun _ => false) p)) := by
    intro p hp
    unfold fftwAll
    rw [get_set]
    exact fftw_full2 hT (s.first_line hp).1 (s.first_line hp).2 (cnt1_eq2 s hf p) (h1 p hp)
  obtain ⟨b3, hb3, h3⟩ := remapAll2_correct (Or.inr rfl) s.first s.second (if s.pre then s.target1 else fun _ => false) s.target2 (scr 1) (ord 1)
    (fftwAll T s.nfast s.cnt1 (if s.pre then s.target1 else fun _ => false) b1) (alongI2 T s.nfast A) h2
    (fun p hp i j h => Setup2.first_cov hP ht (Setup2.second_sub hp h)) ho.o1
  refine ⟨b3, ?_, fun p hp => holds_swap (h3 p hp)⟩
  unfold fft2d
  simp only [hb1, Option.bind_eq_bind, Option.bind_some, hb3]

/-- The last redistribution. -/
theorem fft2d_back (s : Setup2) (hP : 0 < s.P) (ht : s.Tiled) (scr : ℕ → ℕ → Mem D) (ord : ℕ → ℕ → List ℕ) (ho : Arrive2 s ord) (B : ℤ → ℤ → ℕ → D)
    (b4 : ℕ → Bufs D) (h : ∀ p < s.P, Holds2 2 0 (s.second p).swap (fun j i => B i j) ((b4 p).get (s.target2 p))) :
    ∃ b', remapAll2 s.P 1 (fun p => (s.second p).swap) (fun p => (s.box p).swap) s.target2 (fun _ => false) (scr 2) (ord 2) b4 = some b'
      ∧ ∀ p < s.P, Holds2 2 0 (s.box p) B (b' p).user := by
  obtain ⟨b', hb, h'⟩ := remapAll2_correct (Or.inr rfl) (fun p => (s.second p).swap) (fun p => (s.box p).swap) s.target2 (fun _ => false) (scr 2) (ord 2)
    b4 (fun j i => B i j) h
    (fun p hp j i hh => by
      obtain ⟨q, hq, hx⟩ := Setup2.second_cov hP (ht.sub p hp i j ((swap_has _ i j).mp hh))
      exact ⟨q, hq, (swap_has _ i j).mpr hx⟩) ho.o2
  exact ⟨b', hb, fun p hp => holds_swap' (h' p hp)⟩

/-- **The decomposed transform in two dimensions.**  If each process transforms as many lines as it owns, `ath_2d_fft` leaves on each process its
part of the transform of the whole data set. -/
theorem fft2d_correct_partial {T : ℕ → (ℕ → ℕ → D) → ℕ → ℕ → D} (hT : Local T) (s : Setup2) (hP : 0 < s.P) (hf : 0 < s.nfast) (ht : s.Tiled)
    (hc : s.Counts) (scr : ℕ → ℕ → Mem D) (ord : ℕ → ℕ → List ℕ) (ho : Arrive2 s ord) (A : ℤ → ℤ → ℕ → D) (b : ℕ → Bufs D)
    (hb : ∀ p < s.P, Holds2 2 0 (s.box p) A (b p).user) :
    ∃ b', fft2d T s scr ord b = some b' ∧ ∀ p < s.P, Holds2 2 0 (s.box p) (trans2 T s A) (b' p).user := by
  obtain ⟨b3, e, h3⟩ := fft2d_front hT s hP hf ht scr ord ho A b hb
  rw [e]
  apply fft2d_back s hP ht scr ord ho
  intro p hp
  unfold fftwAll
  rw [get_set]
  exact fftw_full2 hT (e := (s.second p).swap) rfl rfl (hc p hp) (h3 p hp)

/-! ## When the counts are right -/

theorem cnt2_own2 (s : Setup2) (hs : 0 < s.nslow) (p : ℕ) : s.total2 p / s.nslow = (s.second p).isize := by
  unfold Setup2.total2 Ext2.isize
  rw [Int.mul_ediv_cancel _ (by omega)]

/-- Two different lengths: each direction has a plan of its own. -/
theorem counts2_distinct (s : Setup2) (hs : 0 < s.nslow) (h : s.nslow ≠ s.nfast) : s.Counts := by
  intro p _
  unfold Setup2.cnt2
  rw [if_neg h]
  exact cnt2_own2 s hs p

/-- With a first redistribution the plan may be shared. -/
theorem counts2_pre (s : Setup2) (hf : 0 < s.nfast) (hs : 0 < s.nslow) (hpre : s.pre) : s.Counts := by
  intro p _
  unfold Setup2.cnt2
  split
  · rename_i hl
    rw [cnt1_eq2 s hf p]
    unfold Setup2.first Ext2.jsize
    rw [if_pos hpre, hl]
    rfl
  · exact cnt2_own2 s hs p

/-- So may it when the boxes divide the slow axis evenly. -/
theorem counts2_even (s : Setup2) (hf : 0 < s.nfast) (hs : 0 < s.nslow) (hd : s.P ∣ s.nfast) (he : ∀ p < s.P, s.P * (s.box p).jsize = s.nslow) : s.Counts := by
  by_cases hpre : s.pre
  · exact counts2_pre s hf hs hpre
  intro p hp
  unfold Setup2.cnt2
  split
  · rename_i hl
    rw [cnt1_eq2 s hf p]
    have e1 : s.first p = s.box p := by unfold Setup2.first; rw [if_neg hpre]
    have hP : 0 < s.P := by omega
    have e2 : (s.second p).isize = (s.nfast / s.P : ℕ) := by
      simp only [Ext2.isize, Setup2.second]; exact lo_even hd hP
    rw [e1, e2]
    apply mul_left_cancel₀ (show (s.P : ℤ) ≠ 0 by omega)
    rw [he p hp, hl]
    exact_mod_cast (Nat.mul_div_cancel' hd).symm
  · exact cnt2_own2 s hs p

/-! ## With FFTW's transform -/

open Finset Athena.Grav

/-- The complex number whose parts are two consecutive numbers (`fftw_complex`). -/
def val2 (A : ℤ → ℤ → ℕ → ℝ) (i j : ℤ) : ℂ := ⟨A i j 0, A i j 1⟩

theorem val_alongI2 (sgn : ℝ) (n : ℕ) (A : ℤ → ℤ → ℕ → ℝ) (i j : ℤ) :
    val2 (alongI2 (dft1 sgn) n A) i j = ∑ b ∈ range n, val2 A b j * ex (sgn * (i.toNat * b / n)) := by
  unfold val2 alongI2 dft1
  simp only [if_true, one_ne_zero, if_false]

theorem val_alongJ2 (sgn : ℝ) (n : ℕ) (A : ℤ → ℤ → ℕ → ℝ) (i j : ℤ) :
    val2 (alongJ2 (dft1 sgn) n A) i j = ∑ b ∈ range n, val2 A i b * ex (sgn * (j.toNat * b / n)) := by
  unfold val2 alongJ2 dft1
  simp only [if_true, one_ne_zero, if_false]

/-- The transform along the two axes is the two-dimensional transform that one process alone makes (`fftw_plan_dft_2d(gnx1, gnx2)`,
ath_fft.c:297-303): the fast axis is x2, the slow one x1 (ath_fft.c:241). -/
theorem trans2_dft (sgn : ℝ) (s : Setup2) (A : ℤ → ℤ → ℕ → ℝ) (a b : ℕ) :
    val2 (trans2 (dft1 sgn) s A) a b = dft2 sgn s.nslow s.nfast (fun i j => val2 A j i) b a := by
  unfold trans2 dft2
  rw [val_alongJ2]
  refine sum_congr rfl fun i _ => ?_
  rw [val_alongI2, sum_mul]
  refine sum_congr rfl fun j _ => ?_
  simp only [Int.toNat_natCast]
  rw [mul_assoc, ← ex_add]
  congr 2
  ring

/-- **`ath_2d_fft` with any decomposition computes the transform of the whole data set**, when each process transforms as many lines as it owns:
the zone `(i, j)` of the Domain, on the process whose Grid has it, holds the Fourier coefficient of wave number `(i, j)`. -/
theorem ath_2d_fft_partial (sgn : ℝ) (s : Setup2) (hP : 0 < s.P) (hf : 0 < s.nfast) (ht : s.Tiled) (hc : s.Counts) (scr : ℕ → ℕ → Mem ℝ)
    (ord : ℕ → ℕ → List ℕ) (ho : Arrive2 s ord) (A : ℤ → ℤ → ℕ → ℝ) (b : ℕ → Bufs ℝ) (hb : ∀ p < s.P, Holds2 2 0 (s.box p) A (b p).user) :
    ∃ b', fft2d (dft1 sgn) s scr ord b = some b' ∧ ∀ p < s.P, ∀ i j : ℕ, (s.box p).has j i →
      (⟨(b' p).user (2 * place2 0 (s.box p) j i), (b' p).user (2 * place2 0 (s.box p) j i + 1)⟩ : ℂ)
        = dft2 sgn s.nslow s.nfast (fun i j => val2 A j i) i j := by
  obtain ⟨b', h1, h2⟩ := fft2d_correct_partial (dft1_local sgn) s hP hf ht hc scr ord ho A b hb
  refine ⟨b', h1, fun p hp i j h => ?_⟩
  rw [← trans2_dft]
  have e0 := h2 p hp j i h 0 (by omega)
  have e1 := h2 p hp j i h 1 (by omega)
  simp only [Nat.cast_ofNat, Nat.cast_zero, Nat.cast_one, add_zero] at e0 e1
  unfold val2
  rw [e0, e1]

/-! ## Memory -/

/-- The array the result of a redistribution is put into has room for it, and so has `scratch`. -/
theorem targets_fit2 (s : Setup2) (p : ℕ) :
    (s.pre → (s.first p).size ≤ (if s.target1 p then s.copySize p else (s.box p).size) ∧ (s.first p).size ≤ s.scratchSize p)
    ∧ ((s.second p).size ≤ (if s.target2 p then s.copySize p else (s.box p).size) ∧ (s.second p).size ≤ s.scratchSize p)
    ∧ (s.box p).size ≤ s.scratchSize p := by
  simp only [Setup2.copySize, Setup2.scratchSize, Setup2.target1, Setup2.target2]
  by_cases h1 : (s.first p).size ≤ (s.box p).size <;> by_cases h2 : (s.second p).size ≤ (s.box p).size <;> by_cases h0 : s.pre <;>
    simp only [h0, h1, h2, if_true, if_false, true_implies, false_implies, true_and, Bool.false_eq_true] <;> omega

/-- **`scratch` suffices**: when no two processes hold the same element, every message of process `me` is received into the first
`nqty` times as many numbers of `scratch` as the new box has elements (what remap_2d.c:55-58 asks for). -/
theorem scratch_fits2 (nq : ℕ) {perm : ℕ} (hp : perm = 0 ∨ perm = 1) {P me : ℕ} (hm : me < P) (ins outs : ℕ → Ext2)
    (hd : ∀ p < P, ∀ q < P, ∀ i j, (ins p).has i j → (ins q).has i j → p = q) :
    ∀ r ∈ recvs2 nq perm P ins outs me, 0 ≤ r.bufloc ∧ r.bufloc + r.size ≤ nq * ((outs me).isize * (outs me).jsize) := by
  intro r hr
  have h := scratch_fits nq perm hm (fun p => (ins p).up) (fun p => (outs p).up)
    (fun p hp' q hq i j k h1 h2 => hd p hp' q hq i j ((up_has _ i j k).mp h1).1 ((up_has _ i j k).mp h2).1) (r.up nq perm (outs me))
    (by rw [recvs_up nq hp]; exact List.mem_map_of_mem hr)
  simp only [up_i, up_j, up_k, mul_one] at h
  exact h

/-- Each receive is met by exactly one message, of the length it expects; and to a process that expects none, none is sent. -/
theorem messages_match2 (nq : ℕ) {perm : ℕ} (hp : perm = 0 ∨ perm = 1) {P q me : ℕ} (hq : q < P) (hm : me < P) (hne : q ≠ me) (ins outs : ℕ → Ext2)
    (data : ℕ → Mem D) :
    (∀ r ∈ recvs2 nq perm P ins outs me, r.proc = q → ∃ b : List D, messages2 nq P ins outs data q me = [b] ∧ (b.length : ℤ) = r.size)
    ∧ ((∀ r ∈ recvs2 nq perm P ins outs me, r.proc ≠ q) → messages2 nq P ins outs data q me = []) := by
  obtain ⟨h1, h2⟩ := messages_match nq perm hq hm hne (fun p => (ins p).up) (fun p => (outs p).up) data
  rw [messages_up] at h1 h2
  rw [recvs_up nq hp] at h1 h2
  constructor
  · intro r hr hrq
    exact h1 (r.up nq perm (outs me)) (List.mem_map_of_mem hr) hrq
  · intro h
    apply h2
    intro r hr
    obtain ⟨r', hr', rfl⟩ := List.mem_map.mp hr
    exact h r' hr'

/-! ## Where it goes wrong -/

/-- `5 * 5` zones on two processes, the Grids divided along x1 as init_mesh.c divides them: the extra zone is on the first. -/
def odd2 : Setup2 where
  P := 2
  nfast := 5
  nslow := 5
  box p := if p = 0 then ⟨0, 4, 0, 2⟩ else ⟨0, 4, 3, 4⟩

theorem odd2_pre : ¬ odd2.pre := by decide

theorem odd2_tiled : odd2.Tiled := by
  constructor
  · intro p hp i j h
    have hp : p = 0 ∨ p = 1 := by have : p < 2 := hp; omega
    rcases hp with rfl | rfl
    · simp only [odd2, Ext2.has, if_true] at h
      simp only [Setup2.all, odd2]; omega
    · simp only [odd2, Ext2.has, one_ne_zero, if_false] at h
      simp only [Setup2.all, odd2]; omega
  · intro i j h
    simp only [Setup2.all, odd2] at h
    by_cases hi : j ≤ 2
    · refine ⟨0, by decide, ?_⟩
      simp only [odd2, Ext2.has, if_true]; omega
    · refine ⟨1, by decide, ?_⟩
      simp only [odd2, Ext2.has, one_ne_zero, if_false]; omega

theorem odd2_second : odd2.second 0 = ⟨0, 1, 0, 4⟩ ∧ odd2.second 1 = ⟨2, 4, 0, 4⟩ := by decide

theorem odd2_cnt : odd2.cnt2 0 = 3 ∧ odd2.cnt2 1 = 2 := by decide

/-- One at the origin, zero elsewhere. -/
def spike2 : ℤ → ℤ → ℕ → ℝ := fun i j c => if i = 0 ∧ j = 0 ∧ c = 0 then 1 else 0

/-- The arrays of the two processes with the spike. -/
def spikeBufs2 : ℕ → Bufs ℝ := fun p => ⟨fun x => if p = 0 ∧ x = 0 then 1 else 0, fun _ => 0⟩

theorem spike_holds2 (p : ℕ) (hp : p < odd2.P) : Holds2 2 0 (odd2.box p) spike2 (spikeBufs2 p).user := by
  intro i j h c hc
  have hp : p = 0 ∨ p = 1 := by have : p < 2 := hp; omega
  unfold spike2 spikeBufs2
  rcases hp with rfl | rfl
  · have hb : odd2.box 0 = ⟨0, 4, 0, 2⟩ := rfl
    rw [hb] at h ⊢
    obtain ⟨⟨a1, a2⟩, ⟨a3, a4⟩⟩ := h
    simp only at a1 a2 a3 a4
    simp only [place2, if_true, Ext2.isize, true_and]
    by_cases h0 : i = 0 ∧ j = 0 ∧ c = 0
    · obtain ⟨rfl, rfl, rfl⟩ := h0
      simp
    · rw [if_neg h0, if_neg]
      intro hx
      apply h0
      push_cast at hx
      refine ⟨?_, ?_, ?_⟩ <;> omega
  · have hb : odd2.box 1 = ⟨0, 4, 3, 4⟩ := rfl
    rw [hb] at h
    have hj : j ≠ 0 := by have := h.2.1; simp only at this; omega
    simp [hj]

theorem val_spike2 (i j : ℤ) : val2 spike2 i j = if i = 0 ∧ j = 0 then 1 else 0 := by
  unfold val2 spike2
  split_ifs with h1 h2 h3
  all_goals first
    | (simp_all; done)
    | (apply Complex.ext <;> simp_all)

/-- After the transforms along x2 the spike is one on the line `x1 = 0` and zero elsewhere. -/
theorem spike2_one (i : ℕ) (j : ℤ) : val2 (alongI2 (dft1 (-1)) 5 spike2) i j = if j = 0 then 1 else 0 := by
  rw [val_alongI2, sum_eq_single 0]
  · rw [val_spike2]; simp [ex_zero]
  · intro b _ hb
    rw [val_spike2, if_neg (by simp [hb])]; simp
  · simp

theorem spike2_two (i j : ℕ) : val2 (trans2 (dft1 (-1)) odd2 spike2) i j = 1 := by
  show val2 (alongJ2 (dft1 (-1)) 5 (alongI2 (dft1 (-1)) 5 spike2)) i j = 1
  rw [val_alongJ2, sum_eq_single 0]
  · have := spike2_one i ((0 : ℕ) : ℤ)
    rw [this]; simp [ex_zero]
  · intro b _ hb
    rw [spike2_one, if_neg (by exact_mod_cast hb)]; simp
  · simp

/-- **The two-dimensional transform of a decomposed array can be wrong.**  `5 * 5` zones on two processes divided along x1: the transforms along x1
reuse the plan of those along x2, which have the same length, but process 1 owns two lines along x2 and three along x1: one line is left
untransformed, whatever the order in which messages arrive. -/
theorem fft2d_false : 0 < odd2.P ∧ odd2.Tiled ∧ (∀ p < odd2.P, Holds2 2 0 (odd2.box p) spike2 (spikeBufs2 p).user)
    ∧ ∀ scr ord, Arrive2 odd2 ord → ∃ b', fft2d (dft1 (-1)) odd2 scr ord spikeBufs2 = some b'
      ∧ (b' 0).user (2 * place2 0 (odd2.box 0) 4 1) = 0 ∧ trans2 (dft1 (-1)) odd2 spike2 4 1 0 = 1 := by
  refine ⟨by decide, odd2_tiled, spike_holds2, fun scr ord ho => ?_⟩
  obtain ⟨b3, e, h3⟩ := fft2d_front (dft1_local (-1)) odd2 (by decide) (by decide) odd2_tiled scr ord ho spike2 spikeBufs2 spike_holds2
  set A1 := alongI2 (dft1 (-1)) odd2.nfast spike2 with hA1
  set B : ℤ → ℤ → ℕ → ℝ := fun i j c =>
    if i - (if i < 2 then 0 else 2) < (if i < 2 then 3 else 2) then dft1 (-1) 5 (fun a c => A1 i a c) j.toNat c else A1 i j c with hB
  obtain ⟨b', hb', h'⟩ := fft2d_back odd2 (by decide) odd2_tiled scr ord ho B (fftwAll (dft1 (-1)) odd2.nslow odd2.cnt2 odd2.target2 b3) (by
    intro p hp
    unfold fftwAll
    rw [get_set]
    have h := fftw_holds2 (dft1_local (-1)) (n := 5) (e := (odd2.second p).swap) rfl rfl (odd2.cnt2 p) (h3 p hp)
    intro j i hh c hc
    refine Eq.trans (h j i hh c hc) ?_
    have hp : p = 0 ∨ p = 1 := by have : p < 2 := hp; omega
    rcases hp with rfl | rfl
    · rw [odd2_second.1] at hh ⊢
      rw [odd2_cnt.1, hB]
      have hi : i < 2 := by have := hh.2.2; simp only [Ext2.swap] at this; omega
      simp only [hi, if_true, Ext2.swap]
      exact if_congr Iff.rfl rfl rfl
    · rw [odd2_second.2] at hh ⊢
      rw [odd2_cnt.2, hB]
      have hi : ¬ i < 2 := by have := hh.2.1; simp only [Ext2.swap] at this; omega
      simp only [hi, if_false, Ext2.swap]
      exact if_congr Iff.rfl rfl rfl)
  refine ⟨b', by rw [e]; exact hb', ?_, ?_⟩
  · have h := h' 0 (by decide) 4 1 (by
      show (Ext2.has ⟨0, 4, 0, 2⟩ 4 1)
      simp [Ext2.has]) 0 (by omega)
    have hv := spike2_one 4 1
    have : A1 4 1 0 = 0 := by
      have := congrArg Complex.re hv
      simp only [val2, Nat.cast_ofNat, one_ne_zero, if_false, Complex.zero_re] at this
      exact this
    rw [hB] at h
    norm_num at h
    rw [this] at h
    exact h
  · have := congrArg Complex.re (spike2_two 4 1)
    simpa [val2] using this

/-! ## The hypotheses can be met -/

/-- `8 * 8` zones on four processes, two by two. -/
def quad : Setup2 where
  P := 4
  nfast := 8
  nslow := 8
  box p := ⟨4 * (p % 2 : ℕ), 4 * (p % 2 : ℕ) + 3, 4 * (p / 2 : ℕ), 4 * (p / 2 : ℕ) + 3⟩

theorem quad_tiled : quad.Tiled := by
  constructor
  · intro p hp i j h
    have hp : p < 4 := hp
    simp only [quad, Ext2.has] at h
    simp only [Setup2.all, quad]; omega
  · intro i j h
    simp only [Setup2.all, quad] at h
    refine ⟨(i / 4).toNat + 2 * (j / 4).toNat, ?_, ?_⟩
    · show _ < 4; omega
    · simp only [quad, Ext2.has]; omega

theorem quad_counts : quad.Counts := counts2_pre quad (by decide) (by decide) ⟨0, by decide, by decide⟩

/-- Orders of arrival exist. -/
theorem arrive_exists2 (s : Setup2) : ∃ ord, Arrive2 s ord :=
  ⟨fun n p => List.range (if n = 0 then (others RecvRec2.proc p (recvs2 2 0 s.P s.box s.first p)).length
    else if n = 1 then (others RecvRec2.proc p (recvs2 2 1 s.P s.first s.second p)).length
    else (others RecvRec2.proc p (recvs2 2 1 s.P (fun p => (s.second p).swap) (fun p => (s.box p).swap) p)).length),
    ⟨fun _ _ => by simp, fun _ _ => by simp, fun _ _ => by simp⟩⟩

/-- The hypotheses of `ath_2d_fft_partial` are met by four processes and any data. -/
example (A : ℤ → ℤ → ℕ → ℝ) (b : ℕ → Bufs ℝ) (hb : ∀ p < quad.P, Holds2 2 0 (quad.box p) A (b p).user) :
    ∃ ord b', Arrive2 quad ord ∧ fft2d (dft1 (-1)) quad (fun _ _ _ => 0) ord b = some b' := by
  obtain ⟨ord, ho⟩ := arrive_exists2 quad
  obtain ⟨b', h, -⟩ := ath_2d_fft_partial (-1) quad (by decide) (by decide) quad_tiled quad_counts (fun _ _ _ => 0) ord ho A b hb
  exact ⟨ord, b', ho, h⟩

/-- Boxes that do not overlap, as `scratch_fits2` asks. -/
example : ∀ p < quad.P, ∀ q < quad.P, ∀ i j, (quad.box p).has i j → (quad.box q).has i j → p = q := by
  intro p hp q hq i j h h'
  have hp : p < 4 := hp
  have hq : q < 4 := hq
  simp only [quad, Ext2.has] at h h'
  omega

/-- Messages do flow: process 1 of `odd2` receives one from process 0 before the second transforms. -/
example : (recvs2 2 1 2 odd2.box odd2.second 1).map (fun r => (r.proc, r.bufloc, r.size)) = [(0, 0, 18), (1, 18, 12)] := by decide

end Athena.Fft
