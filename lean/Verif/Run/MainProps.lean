import Verif.Run.MainLemmas
import Mathlib.Tactic.NormNum
import Mathlib.Data.Rat.Floor

/-!
# Properties C07, C24, C43 (src/main.c, src/new_dt.c, src/ath_signal.c)
-/

namespace Athena.Run

variable {R : Type} [Field R] [LinearOrder R] {X : Type}

/-! ## C24: the time step -/

/-- The limits on the time step of a rank whose clock and last step are in `c`: the CFL limit of every
rank, twice the last step (after the first cycle), the time left, the diffusion limit of every rank. -/
def Limits (J : Job R X) (x : X) (c : Ctl R) (b : WithTop R) : Prop :=
  (∃ r ≤ J.extra, b = quot J.cour (J.maxDti x r)) ∨
  (c.nstep ≠ 0 ∧ b = c.dt.map (2 * ·)) ∨
  (c.time < J.tlim ∧ b = ((J.tlim - c.time : R) : WithTop R)) ∨
  (∃ d, J.maxDtiDiff = some d ∧ ∃ r ≤ J.extra, b = quot J.cour (d x r))

theorem limitDt_spec (tlim : R) (g : WithTop R) (c : Ctl R) :
    limitDt tlim g c ≤ g ∧ (c.nstep ≠ 0 → limitDt tlim g c ≤ c.dt.map (2 * ·)) ∧
    (c.time < tlim → limitDt tlim g c ≤ ((tlim - c.time : R) : WithTop R)) ∧
    (limitDt tlim g c = g ∨ (c.nstep ≠ 0 ∧ limitDt tlim g c = c.dt.map (2 * ·)) ∨
      (c.time < tlim ∧ limitDt tlim g c = ((tlim - c.time : R) : WithTop R))) := by
  unfold limitDt
  dsimp only
  by_cases hn : c.nstep ≠ 0
  · rw [if_pos hn]
    split_ifs with h
    · exact ⟨h.2.le.trans (min_le_left _ _), fun _ => h.2.le.trans (min_le_right _ _), fun _ => le_refl _,
        Or.inr (Or.inr ⟨h.1, rfl⟩)⟩
    · refine ⟨min_le_left _ _, fun _ => min_le_right _ _, ?_, ?_⟩
      · intro ht
        by_contra hc
        exact h ⟨ht, lt_of_not_ge hc⟩
      · rcases min_choice g (WithTop.map (2 * ·) c.dt) with e | e
        · exact Or.inl e
        · exact Or.inr (Or.inl ⟨hn, e⟩)
  · rw [if_neg hn]
    split_ifs with h
    · exact ⟨h.2.le, fun h' => absurd h' hn, fun _ => le_refl _, Or.inr (Or.inr ⟨h.1, rfl⟩)⟩
    · refine ⟨le_refl _, fun h' => absurd h' hn, ?_, Or.inl rfl⟩
      intro ht
      by_contra hc
      exact h ⟨ht, lt_of_not_ge hc⟩

theorem mem_ranks (J : Job R X) (r : Nat) : r ∈ J.ranks ↔ r ≤ J.extra := by
  simp only [Job.ranks, List.mem_range]; omega

theorem newDt1_spec (J : Job R X) (x : X) (c : Ctl R) :
    (∀ b, Limits J x c b → newDt1 J x c ≤ b) ∧ Limits J x c (newDt1 J x c) := by
  have hne : ∀ f : Nat → WithTop R, J.ranks.map f ≠ [] := by
    intro f; simp [Job.ranks]
  obtain ⟨h1, h2, h3, h4⟩ := limitDt_spec J.tlim (allMin (J.ranks.map (fun r => quot J.cour (J.maxDti x r)))) c
  have hg := allMin_mem (hne (fun r => quot J.cour (J.maxDti x r)))
  have hle : newDt1 J x c ≤ limitDt J.tlim (allMin (J.ranks.map (fun r => quot J.cour (J.maxDti x r)))) c := by
    unfold newDt1
    cases J.maxDtiDiff with
    | none => exact le_refl _
    | some d => exact min_le_left _ _
  constructor
  · rintro b (⟨r, hr, rfl⟩ | ⟨hn, rfl⟩ | ⟨ht, rfl⟩ | ⟨d, hd, r, hr, rfl⟩)
    · exact (hle.trans h1).trans (allMin_le (List.mem_map_of_mem ((mem_ranks J r).2 hr)))
    · exact hle.trans (h2 hn)
    · exact hle.trans (h3 ht)
    · unfold newDt1
      rw [hd]
      exact (min_le_right _ _).trans (allMin_le (List.mem_map_of_mem ((mem_ranks J r).2 hr)))
  · have hlim : Limits J x c (limitDt J.tlim (allMin (J.ranks.map (fun r => quot J.cour (J.maxDti x r)))) c) := by
      rcases h4 with e | e | e
      · rw [e]
        obtain ⟨r, hr, e'⟩ := List.mem_map.1 hg
        exact Or.inl ⟨r, (mem_ranks J r).1 hr, e'.symm⟩
      · exact Or.inr (Or.inl e)
      · exact Or.inr (Or.inr (Or.inl e))
    unfold newDt1
    cases hd : J.maxDtiDiff with
    | none => exact hlim
    | some d =>
      dsimp only
      rcases min_choice (limitDt J.tlim (allMin (J.ranks.map (fun r => quot J.cour (J.maxDti x r)))) c)
        (allMin (J.ranks.map (fun r => quot J.cour (d x r)))) with e | e
      · rw [e]; exact hlim
      · rw [e]
        obtain ⟨r, hr, e'⟩ := List.mem_map.1 (allMin_mem (hne (fun r => quot J.cour (d x r))))
        exact Or.inr (Or.inr (Or.inr ⟨d, hd, r, (mem_ranks J r).1 hr, e'.symm⟩))

/-- **C24.**  `new_dt` gives every rank the smallest of the limits: the CFL limit of every rank, twice the
previous step unless this is the first, the time left until `tlim`, and the diffusion limit of every rank.
Nothing else of the rank's clock changes, and ranks with the same clock get the same step. -/
theorem new_dt_spec (J : Job R X) (x : X) (cs : List (Ctl R)) (i : Nat) (c : Ctl R) (hi : cs[i]? = some c) :
    ∃ dt, (newDt J x cs)[i]? = some { c with dt := dt } ∧ (∀ b, Limits J x c b → dt ≤ b) ∧ Limits J x c dt := by
  refine ⟨newDt1 J x c, ?_, newDt1_spec J x c⟩
  rw [newDt_eq, List.getElem?_map, hi]
  rfl

/-! ## The loop of one rank -/

structure Entry (J : Job R X) (c : Ctl R) : Prop where
  iquit : c.iquit = 0
  sig : c.sig = 0
  dt_le : c.time < J.tlim → c.dt ≤ ((J.tlim - c.time : R) : WithTop R)

theorem finite?_some {d : WithTop R} {r : R} (h : finite? d = some r) : d = (r : WithTop R) := h

theorem cyc_dt_le (J : Job R X) (k : Nat) (dt : R) (c : Ctl R) (x : X) : (cyc J k dt c x).time < J.tlim →
    (cyc J k dt c x).dt ≤ ((J.tlim - (cyc J k dt c x).time : R) : WithTop R) := by
  intro h
  exact (newDt1_spec J (J.adv dt x) (advance dt c)).1 _ (Or.inr (Or.inr (Or.inl ⟨h, rfl⟩)))

/-- What the loop guarantees on one rank. -/
structure LoopSpec (J : Job R X) (fuel k : Nat) (c : Ctl R) (st : Stat) (c' : Ctl R) (dts : List R) : Prop where
  stat : st ≠ .deadlock ∧ st ≠ .infinite
  nstep : c'.nstep = c.nstep + dts.length
  time : c'.time = c.time + dts.sum
  tlim : c.time ≤ J.tlim → c'.time ≤ J.tlim
  nlim : 0 ≤ J.nlim → (c.nstep : Int) ≤ J.nlim → (c'.nstep : Int) ≤ J.nlim
  limit : st = .limit → J.tlim ≤ c'.time ∨ (0 ≤ J.nlim ∧ J.nlim ≤ (c'.nstep : Int))
  quit : st = .quit → ∃ n, dts.length = n + 1 ∧
    ∃ r ≤ J.extra, J.early (k + n) r = true ∨ J.wall (k + n) r = true
  iquit : st ≠ .quit → c'.iquit = 0
  running : st = .running → dts.length = fuel
  noearlier : ∀ j, j + (if st = .quit then 1 else 0) < dts.length →
    ∀ r ≤ J.extra, J.early (k+j) r = false ∧ J.wall (k+j) r = false

theorem loop1_spec [IsStrictOrderedRing R] (J : Job R X) : ∀ (fuel k : Nat) (c : Ctl R) (x : X), Entry J c →
    LoopSpec J fuel k c (loop1 J fuel k c x).1 (loop1 J fuel k c x).2.1 (loop1 J fuel k c x).2.2.2 := by
  have hstop : ∀ (fuel k : Nat) (c : Ctl R), Entry J c → cond J c = false → LoopSpec J fuel k c .limit c [] := by
    intro fuel k c hE h
    refine ⟨by simp, by simp, by simp, fun h => h, fun _ h => h, ?_, by simp, fun _ => hE.iquit, by simp, by simp⟩
    intro _
    unfold cond at h
    rw [decide_eq_false_iff_not, not_and_or, not_lt, not_or, not_lt, not_lt] at h
    exact h
  intro fuel
  induction fuel with
  | zero =>
    intro k c x hE
    unfold loop1
    cases h : cond J c
    · simpa using hstop 0 k c hE h
    · simp only [Bool.true_eq_false, if_false]
      exact ⟨by simp, by simp, by simp, fun h => h, fun _ h => h, by simp, by simp, fun _ => hE.iquit, by simp,
        by simp⟩
  | succ fuel ih =>
    intro k c x hE
    unfold loop1
    cases h : cond J c
    · simpa using hstop (fuel+1) k c hE h
    · simp only [Bool.true_eq_false, if_false]
      have hc : c.time < J.tlim ∧ (J.nlim < 0 ∨ (c.nstep : Int) < J.nlim) := by
        unfold cond at h; simpa using h
      have hdle := hE.dt_le hc.1
      cases hdt : finite? c.dt with
      | none =>
        have : c.dt = (⊤ : WithTop R) := hdt
        rw [this] at hdle
        exact absurd hdle (by simp)
      | some dt =>
        have hd : c.dt = (dt : WithTop R) := hdt
        rw [hd, WithTop.coe_le_coe] at hdle
        have hnlim : 0 ≤ J.nlim → ((c.nstep + 1 : Nat) : Int) ≤ J.nlim := by
          intro h0; rcases hc.2 with h | h <;> push_cast <;> omega
        by_cases hq : quitVal J k c.iquit ≠ 0
        · simp only [if_pos hq]
          rw [hE.iquit] at hq
          refine ⟨by simp, rfl, by simp [cyc, advance], ?_, ?_, by simp, ?_, by simp, by simp, by simp⟩
          · intro _; show c.time + dt ≤ _; linarith
          · intro h0 _; exact hnlim h0
          · intro _
            exact ⟨0, rfl, by simpa using (quitVal_ne_zero J k).1 hq⟩
        · simp only [if_neg hq]
          have hq0 : quitVal J k 0 = 0 := by rw [hE.iquit] at hq; simpa using hq
          have hE' : Entry J (cyc J k dt c x) := ⟨by show quitVal J k c.iquit = 0; rw [hE.iquit]; exact hq0, rfl,
            cyc_dt_le J k dt c x⟩
          have s := ih (k+1) (cyc J k dt c x) (J.adv dt x) hE'
          refine ⟨s.stat, ?_, ?_, ?_, ?_, s.limit, ?_, s.iquit, ?_, ?_⟩
          · rw [s.nstep]; show c.nstep + 1 + _ = _; simp; omega
          · rw [s.time]; show c.time + dt + _ = _; simp; ring
          · intro _; exact s.tlim (by show c.time + dt ≤ _; linarith)
          · intro h0 _; exact s.nlim h0 (hnlim h0)
          · intro hst
            obtain ⟨n, hn, r, hr, h⟩ := s.quit hst
            refine ⟨n+1, by simp [hn], r, hr, ?_⟩
            rw [show k + (n+1) = k + 1 + n by omega]; exact h
          · intro hst; simp [s.running hst]
          · intro j hj r hr
            cases j with
            | zero =>
              have := (quitVal_ne_zero J k).not.1 (by rw [hq0]; simp)
              push Not at this
              have := this r hr
              simpa using this
            | succ j =>
              have := s.noearlier j (by simp only [List.length_cons] at hj; omega) r hr
              rw [show k + (j+1) = k+1+j by omega]; exact this

theorem startNew_eq (J : Job R X) (t0 : R) (x : X) :
    startNew J t0 x = List.replicate (J.extra+1) ⟨t0, 0, newDt1 J x ⟨t0, 0, ⊤, 0, 0⟩, 0, 0⟩ := by
  unfold startNew
  rw [newDt_eq]
  rw [List.map_map]
  rw [List.eq_replicate_iff]
  refine ⟨by simp [Job.ranks], ?_⟩
  intro b hb
  obtain ⟨r, -, rfl⟩ := List.mem_map.1 hb
  rfl

theorem startRestart_eq (J : Job R X) (t : R) (n : Nat) (dt : R) :
    startRestart J t n dt = List.replicate (J.extra+1) ⟨t, n, (dt : WithTop R), 0, 0⟩ := by
  unfold startRestart
  rw [List.eq_replicate_iff]
  refine ⟨by simp [Job.ranks], ?_⟩
  intro b hb
  obtain ⟨r, -, rfl⟩ := List.mem_map.1 hb
  rfl

theorem entry_new (J : Job R X) (t0 : R) (x : X) : Entry J ⟨t0, 0, newDt1 J x ⟨t0, 0, ⊤, 0, 0⟩, 0, 0⟩ :=
  ⟨rfl, rfl, fun h => (newDt1_spec J x ⟨t0, 0, ⊤, 0, 0⟩).1 _ (Or.inr (Or.inr (Or.inl ⟨h, rfl⟩)))⟩

/-! ## C07 -/

/-- What a run must satisfy at any point, on every rank: no rank is left waiting for others, the clock
is the start time plus the steps taken, the cycle counter counts them, the limits are respected, and the
loop ends only because of a limit, or in the cycle in which a signal or the wall clock asked for it. -/
structure RunSpec (J : Job R X) (t0 : R) (n0 fuel : Nat) (st : Stat) (cs : List (Ctl R)) (dts : List R) : Prop where
  alive : st ≠ .deadlock ∧ st ≠ .infinite
  ranks : cs.length = J.extra + 1
  same : ∀ c ∈ cs, ∀ c' ∈ cs, c = c'
  nstep : ∀ c ∈ cs, c.nstep = n0 + dts.length
  time : ∀ c ∈ cs, c.time = t0 + dts.sum
  tlim : t0 ≤ J.tlim → ∀ c ∈ cs, c.time ≤ J.tlim
  nlim : 0 ≤ J.nlim → (n0 : Int) ≤ J.nlim → ∀ c ∈ cs, (c.nstep : Int) ≤ J.nlim
  limit : st = .limit → ∀ c ∈ cs, J.tlim ≤ c.time ∨ (0 ≤ J.nlim ∧ J.nlim ≤ (c.nstep : Int))
  quit : st = .quit → ∃ n, dts.length = n + 1 ∧ ∃ r ≤ J.extra, J.early n r = true ∨ J.wall n r = true
  running : st = .running → dts.length = fuel

theorem runSpec_of [IsStrictOrderedRing R] (J : Job R X) (fuel : Nat) (c : Ctl R) (x : X) (hE : Entry J c) :
    RunSpec J c.time c.nstep fuel (loop J fuel 0 (List.replicate (J.extra+1) c) x).1
      (loop J fuel 0 (List.replicate (J.extra+1) c) x).2.1 (loop J fuel 0 (List.replicate (J.extra+1) c) x).2.2.2 := by
  rw [loop_replicate J fuel 0 c x hE.sig]
  have s := loop1_spec J fuel 0 c x hE
  have hm : ∀ d ∈ List.replicate (J.extra+1) (loop1 J fuel 0 c x).2.1, d = (loop1 J fuel 0 c x).2.1 :=
    fun d hd => List.eq_of_mem_replicate hd
  refine ⟨s.stat, by simp, fun a ha b hb => by rw [hm a ha, hm b hb], fun d hd => by rw [hm d hd]; exact s.nstep,
    fun d hd => by rw [hm d hd]; exact s.time, fun h d hd => by rw [hm d hd]; exact s.tlim h,
    fun h h' d hd => by rw [hm d hd]; exact s.nlim h h', fun h d hd => by rw [hm d hd]; exact s.limit h, ?_, s.running⟩
  intro h
  obtain ⟨n, h1, r, hr, h2⟩ := s.quit h
  exact ⟨n, h1, r, hr, by simpa using h2⟩

/-- **C07, new runs.**  For every solver, every number of ranks, every arrival of signals and every number
of cycles. -/
theorem main_loop_new [IsStrictOrderedRing R] (J : Job R X) (t0 : R) (x0 : X) (fuel : Nat) :
    let r := loop J fuel 0 (startNew J t0 x0) x0
    RunSpec J t0 0 fuel r.1 r.2.1 r.2.2.2 := by
  have := runSpec_of J fuel _ x0 (entry_new J t0 x0)
  rw [← startNew_eq] at this
  exact this

/-- **C07, restarts.**  The step in the restart file is used as it is, so the statement needs that it does
not overshoot the time limit: true if the file was written by a run with the same limit. -/
theorem main_loop_restart_partial [IsStrictOrderedRing R] (J : Job R X) (t0 : R) (n0 : Nat) (dt0 : R) (x0 : X)
    (hdt : t0 < J.tlim → t0 + dt0 ≤ J.tlim) (fuel : Nat) :
    let r := loop J fuel 0 (startRestart J t0 n0 dt0) x0
    RunSpec J t0 n0 fuel r.1 r.2.1 r.2.2.2 := by
  have hE : Entry J ⟨t0, n0, (dt0 : WithTop R), 0, 0⟩ :=
    ⟨rfl, rfl, fun h => WithTop.coe_le_coe.2 (by have := hdt h; show dt0 ≤ J.tlim - t0; linarith)⟩
  have := runSpec_of J fuel _ x0 hE
  rw [← startRestart_eq] at this
  exact this

/-- A one-rank job for the examples: the proposed step is always 1 (`CourNo = 1`, `max_dti = 1`). -/
def exJob (tlim : ℚ) (nlim : Int) (early late : Nat → Nat → Bool) : Job ℚ Unit :=
  ⟨tlim, nlim, 1, 0, fun _ x => x, fun _ _ => 1, none, early, late, fun _ _ => false⟩

/-- **Disagreement.**  Restarting with a smaller `tlim` (e.g. on the command line) overshoots it: the step
of the file is not clipped. -/
theorem restart_overshoot_false : ∃ (J : Job ℚ Unit) (fuel : Nat),
    (3 : ℚ) < J.tlim ∧ ∃ c ∈ (loop J fuel 0 (startRestart J 3 7 1) ()).2.1, J.tlim < c.time := by
  refine ⟨exJob (7/2) (-1) (fun _ _ => false) (fun _ _ => false), 1, by norm_num [exJob], ?_⟩
  rw [startRestart_eq, loop_replicate _ _ _ _ _ rfl]
  refine ⟨_, by simp; exact rfl, ?_⟩
  decide +kernel

/-- Non-vacuity: a run of three cycles of lengths 1, 1, 1/2 that ends exactly at the time limit. -/
example : (loop (exJob (5/2) (-1) (fun _ _ => false) (fun _ _ => false)) 9 0
    (startNew (exJob (5/2) (-1) (fun _ _ => false) (fun _ _ => false)) 0 ()) ()).1 = .limit ∧
    (loop (exJob (5/2) (-1) (fun _ _ => false) (fun _ _ => false)) 9 0
    (startNew (exJob (5/2) (-1) (fun _ _ => false) (fun _ _ => false)) 0 ()) ()).2.2.2 = [1, 1, 1/2] := by
  decide +kernel

/-! ### Termination -/

/-- All steps stay above a positive bound, except one that reaches `tlim`. -/
theorem loop1_terminates [IsStrictOrderedRing R] (J : Job R X) (δ : R) (hδ : 0 < δ)
    (hq : ∀ x, ∀ r ≤ J.extra, ((δ : R) : WithTop R) ≤ quot J.cour (J.maxDti x r))
    (hdiff : ∀ d, J.maxDtiDiff = some d → ∀ x, ∀ r ≤ J.extra, ((δ : R) : WithTop R) ≤ quot J.cour (d x r)) :
    ∀ (fuel k : Nat) (c : Ctl R) (x : X),
      (c.time < J.tlim → ((min δ (J.tlim - c.time) : R) : WithTop R) ≤ c.dt) →
      J.tlim ≤ c.time + fuel * δ → (loop1 J fuel k c x).1 ≠ .running := by
  intro fuel
  induction fuel with
  | zero =>
    intro k c x hc h
    have : cond J c = false := by
      unfold cond; rw [decide_eq_false_iff_not]; rintro ⟨h', -⟩; simp at h; linarith
    unfold loop1
    simp [this]
  | succ fuel ih =>
    intro k c x hc h
    unfold loop1
    cases hcd : cond J c
    · simp
    · simp only [Bool.true_eq_false, if_false]
      have ht : c.time < J.tlim := by unfold cond at hcd; simp only [decide_eq_true_eq] at hcd; exact hcd.1
      cases hdt : finite? c.dt with
      | none => simp
      | some dt =>
        have hd : c.dt = (dt : WithTop R) := hdt
        have hle := hc ht
        rw [hd, WithTop.coe_le_coe] at hle
        dsimp only
        split_ifs with hq'
        · simp
        · refine ih _ _ _ ?_ ?_
          · intro ht'
            have ht'' : c.time + dt < J.tlim := ht'
            have hdt' : δ ≤ dt := by
              rcases min_choice δ (J.tlim - c.time) with e | e
              · rw [e] at hle; exact hle
              · rw [e] at hle; exfalso; linarith
            have hl := (newDt1_spec J (J.adv dt x) (advance dt c)).2
            show _ ≤ newDt1 J (J.adv dt x) (advance dt c)
            rcases hl with ⟨r, hr, e⟩ | ⟨-, e⟩ | ⟨-, e⟩ | ⟨d, hd', r, hr, e⟩
            · rw [e]; exact (WithTop.coe_le_coe.2 (min_le_left _ _)).trans (hq _ r hr)
            · rw [e]
              have : (advance dt c).dt = (dt : WithTop R) := hd
              rw [this, WithTop.map_coe]
              exact WithTop.coe_le_coe.2 ((min_le_left _ _).trans (by linarith))
            · rw [e]; exact WithTop.coe_le_coe.2 (min_le_right _ _)
            · rw [e]; exact (WithTop.coe_le_coe.2 (min_le_left _ _)).trans (hdiff d hd' _ r hr)
          · show J.tlim ≤ c.time + dt + fuel * δ
            have hf : (0:R) ≤ fuel * δ := mul_nonneg (Nat.cast_nonneg _) hδ.le
            rcases min_choice δ (J.tlim - c.time) with e | e
            · rw [e] at hle
              push_cast at h
              have : (↑fuel + 1) * δ = ↑fuel * δ + δ := by ring
              linarith
            · rw [e] at hle; linarith

/-- **C07, termination.**  If the CFL and diffusion limits never fall below a positive bound, a new run
ends after finitely many cycles. -/
theorem main_loop_terminates [IsStrictOrderedRing R] [Archimedean R] (J : Job R X) (t0 : R) (x0 : X) (δ : R)
    (hδ : 0 < δ) (hq : ∀ x, ∀ r ≤ J.extra, ((δ : R) : WithTop R) ≤ quot J.cour (J.maxDti x r))
    (hdiff : ∀ d, J.maxDtiDiff = some d → ∀ x, ∀ r ≤ J.extra, ((δ : R) : WithTop R) ≤ quot J.cour (d x r)) :
    ∃ fuel, (loop J fuel 0 (startNew J t0 x0) x0).1 = .limit ∨ (loop J fuel 0 (startNew J t0 x0) x0).1 = .quit := by
  obtain ⟨fuel, hf⟩ := Archimedean.arch (J.tlim - t0) hδ
  refine ⟨fuel, ?_⟩
  rw [startNew_eq, loop_replicate _ _ _ _ _ rfl]
  have h1 := loop1_terminates J δ hδ hq hdiff fuel 0 ⟨t0, 0, newDt1 J x0 ⟨t0, 0, ⊤, 0, 0⟩, 0, 0⟩ x0 (by
    intro _
    have hl := (newDt1_spec J x0 ⟨t0, 0, ⊤, 0, 0⟩).2
    show _ ≤ newDt1 J x0 ⟨t0, 0, ⊤, 0, 0⟩
    rcases hl with ⟨r, hr, e⟩ | ⟨h, e⟩ | ⟨-, e⟩ | ⟨d, hd', r, hr, e⟩
    · rw [e]; exact (WithTop.coe_le_coe.2 (min_le_left _ _)).trans (hq _ r hr)
    · exact absurd rfl h
    · rw [e]; exact WithTop.coe_le_coe.2 (min_le_right _ _)
    · rw [e]; exact (WithTop.coe_le_coe.2 (min_le_left _ _)).trans (hdiff d hd' _ r hr)) (by
    rw [nsmul_eq_mul] at hf
    show J.tlim ≤ t0 + _
    linarith)
  have h2 := (loop1_spec J fuel 0 _ x0 (entry_new J t0 x0)).stat
  revert h1 h2
  generalize (loop1 J fuel 0 ⟨t0, 0, newDt1 J x0 ⟨t0, 0, ⊤, 0, 0⟩, 0, 0⟩ x0).1 = st
  cases st <;> simp

example : let J := exJob (5/2) (-1) (fun _ _ => false) (fun _ _ => false)
    ∃ fuel, (loop J fuel 0 (startNew J 0 ()) ()).1 = .limit ∨ (loop J fuel 0 (startNew J 0 ()) ()).1 = .quit :=
  main_loop_terminates _ 0 () 1 (by norm_num)
    (by intro x r _; show ((1:ℚ) : WithTop ℚ) ≤ quot (1:ℚ) 1; decide +kernel) (by intro d h; simp [exJob] at h)

/-! ### The reason printed -/

/-- **C07, message.**  If no signal stopped the run and the run did not start beyond the cycle limit, the
reason printed is true: the cycle limit is reached, the wall-clock limit was hit, or `time = tlim`. -/
theorem message_partial [IsStrictOrderedRing R] (J : Job R X) (t0 : R) (x0 : X) (fuel : Nat) (ht : t0 ≤ J.tlim)
    (hsig : ∀ k r, J.early k r = false) :
    let r := loop J fuel 0 (startNew J t0 x0) x0
    r.1 ≠ .running → ∀ c ∈ r.2.1,
      (finalMsg J c = .cycleLimit → (c.nstep : Int) = J.nlim) ∧
      (finalMsg J c = .wallTime → ∃ k r, J.wall k r = true) ∧
      (finalMsg J c = .timeLimit → c.time = J.tlim) := by
  have hspec := main_loop_new J t0 x0 fuel
  dsimp only at hspec ⊢
  intro hrun c hc
  have hs1 := loop1_spec J fuel 0 _ x0 (entry_new J t0 x0)
  have e := loop_replicate J fuel 0 ⟨t0, 0, newDt1 J x0 ⟨t0, 0, ⊤, 0, 0⟩, 0, 0⟩ x0 rfl
  rw [← startNew_eq] at e
  have hst : (loop J fuel 0 (startNew J t0 x0) x0).1 =
    (loop1 J fuel 0 ⟨t0, 0, newDt1 J x0 ⟨t0, 0, ⊤, 0, 0⟩, 0, 0⟩ x0).1 := by rw [e]
  have hcc : c = (loop1 J fuel 0 ⟨t0, 0, newDt1 J x0 ⟨t0, 0, ⊤, 0, 0⟩, 0, 0⟩ x0).2.1 := by
    rw [e] at hc; exact List.eq_of_mem_replicate hc
  -- iquit is 0 or WTQUIT
  have hiq : (loop J fuel 0 (startNew J t0 x0) x0).1 = .quit → c.iquit = WTQUIT := by
    rw [hst, hcc]
    clear hspec hrun hs1 e hst hcc hc
    have hE := entry_new J t0 x0
    generalize (⟨t0, 0, newDt1 J x0 ⟨t0, 0, ⊤, 0, 0⟩, 0, 0⟩ : Ctl R) = c0 at *
    suffices H : ∀ (fuel k : Nat) (c : Ctl R) (x : X), Entry J c → (loop1 J fuel k c x).1 = .quit →
        (loop1 J fuel k c x).2.1.iquit = WTQUIT from H fuel 0 c0 x0 hE
    intro fuel
    induction fuel with
    | zero =>
      intro k c x _ h
      unfold loop1 at h
      split_ifs at h
    | succ fuel ih =>
      intro k c x hE h
      unfold loop1 at h ⊢
      by_cases h1 : cond J c = false
      · rw [if_pos h1] at h; simp at h
      rw [if_neg h1] at h ⊢
      cases hdt : finite? c.dt with
      | none => simp only [hdt] at h; simp at h
      | some dt =>
        simp only [hdt] at h ⊢
        by_cases h2 : quitVal J k c.iquit ≠ 0
        · rw [if_pos h2]
          show quitVal J k c.iquit = WTQUIT
          rw [hE.iquit] at h2 ⊢
          unfold quitVal allMax at h2 ⊢
          rcases (foldl_max_ge (J.ranks.map fun r =>
            let i := if J.wall k r then WTQUIT else 0
            let s := if J.early k r then SIGTERM else 0
            if s > i then s else i) 0).2.2 with e | e
          · exact absurd e h2
          · obtain ⟨r, hr, e'⟩ := List.mem_map.1 e
            rw [← e'] at h2 ⊢
            simp only [hsig] at h2 ⊢
            cases hw : J.wall k r
            · rw [hw] at h2; simp at h2
            · simp [WTQUIT]
        · rw [if_neg h2] at h ⊢
          refine ih (k+1) _ _ ⟨?_, rfl, cyc_dt_le J k dt c x⟩ h
          show quitVal J k c.iquit = 0
          simpa using h2
  have hwall : (loop J fuel 0 (startNew J t0 x0) x0).1 = .quit → ∃ k r, J.wall k r = true := by
    intro h
    obtain ⟨n, -, r, -, h | h⟩ := hspec.quit h
    · rw [hsig] at h; simp at h
    · exact ⟨n, r, h⟩
  have hcase : (loop J fuel 0 (startNew J t0 x0) x0).1 = .limit ∨ (loop J fuel 0 (startNew J t0 x0) x0).1 = .quit := by
    have := hspec.alive
    revert hrun this
    generalize (loop J fuel 0 (startNew J t0 x0) x0).1 = st
    cases st <;> simp
  unfold finalMsg
  refine ⟨?_, ?_, ?_⟩
  · split_ifs with h1 <;> simp [h1]
  · split_ifs with h1 h2
    · simp
    · intro _
      rcases hcase with h | h
      · exfalso
        have hne : (loop J fuel 0 (startNew J t0 x0) x0).1 ≠ .quit := by rw [h]; simp
        rw [hst] at hne
        have := hs1.iquit hne
        rw [← hcc, h2] at this
        simp [WTQUIT] at this
      · exact hwall h
    · simp
  · split_ifs with h1 h2
    · simp
    · simp
    · intro _
      rcases hcase with h | h
      · rcases hspec.limit h c hc with h' | ⟨h0, h'⟩
        · exact le_antisymm (hspec.tlim ht c hc) h'
        · exfalso
          apply h1
          exact le_antisymm (hspec.nlim h0 (by simpa using h0) c hc) h'
      · exact absurd (hiq h) h2

/-- **Disagreement.**  A run stopped by SIGTERM reports "terminating on time limit". -/
theorem message_sigterm_false : ∃ (J : Job ℚ Unit) (fuel : Nat),
    (loop J fuel 0 (startNew J 0 ()) ()).1 = .quit ∧
    ∃ c ∈ (loop J fuel 0 (startNew J 0 ()) ()).2.1, finalMsg J c = .timeLimit ∧ c.time < J.tlim := by
  refine ⟨exJob 5 (-1) (fun k _ => k == 1) (fun _ _ => false), 9, by decide +kernel, ?_⟩
  rw [startNew_eq, loop_replicate _ _ _ _ _ rfl]
  exact ⟨_, by simp; exact rfl, by decide +kernel⟩

/-! ## C43 -/

/-- **C43.**  A termination signal (or the wall-clock limit) on any rank, arriving in cycle `j` before the
check reads the flag, ends the run on all ranks at the end of that cycle if the run gets there; all ranks
have then done the same `j+1` cycles. -/
theorem signal_stops [IsStrictOrderedRing R] (J : Job R X) (t0 : R) (x0 : X) (fuel j r : Nat) (hr : r ≤ J.extra)
    (hs : J.early j r = true ∨ J.wall j r = true) :
    let q := loop J fuel 0 (startNew J t0 x0) x0
    j < q.2.2.2.length → q.1 = .quit ∧ q.2.2.2.length = j + 1 ∧ ∀ c ∈ q.2.1, c.nstep = j + 1 := by
  have hspec := main_loop_new J t0 x0 fuel
  dsimp only at hspec ⊢
  intro hj
  have hs1 := loop1_spec J fuel 0 _ x0 (entry_new J t0 x0)
  have e := loop_replicate J fuel 0 ⟨t0, 0, newDt1 J x0 ⟨t0, 0, ⊤, 0, 0⟩, 0, 0⟩ x0 rfl
  rw [← startNew_eq] at e
  have hlen : (loop J fuel 0 (startNew J t0 x0) x0).2.2.2 =
    (loop1 J fuel 0 ⟨t0, 0, newDt1 J x0 ⟨t0, 0, ⊤, 0, 0⟩, 0, 0⟩ x0).2.2.2 := by rw [e]
  have hst : (loop J fuel 0 (startNew J t0 x0) x0).1 =
    (loop1 J fuel 0 ⟨t0, 0, newDt1 J x0 ⟨t0, 0, ⊤, 0, 0⟩, 0, 0⟩ x0).1 := by rw [e]
  have hno := hs1.noearlier j
  rw [← hlen, ← hst] at hno
  have : (loop J fuel 0 (startNew J t0 x0) x0).1 = .quit ∧
      (loop J fuel 0 (startNew J t0 x0) x0).2.2.2.length = j + 1 := by
    by_contra hc
    have hlt : j + (if (loop J fuel 0 (startNew J t0 x0) x0).1 = .quit then 1 else 0) <
        (loop J fuel 0 (startNew J t0 x0) x0).2.2.2.length := by
      by_cases hq : (loop J fuel 0 (startNew J t0 x0) x0).1 = .quit
      · rw [if_pos hq]
        have : (loop J fuel 0 (startNew J t0 x0) x0).2.2.2.length ≠ j + 1 := fun h => hc ⟨hq, h⟩
        omega
      · rw [if_neg hq]; exact hj
    have := hno hlt r hr
    rw [Nat.zero_add] at this
    rcases hs with h | h
    · rw [this.1] at h; simp at h
    · rw [this.2] at h; simp at h
  refine ⟨this.1, this.2, ?_⟩
  intro c hc
  rw [hspec.nstep c hc, this.2]; omega

/-- **C43.**  Without signals and wall-clock limit the loop is never stopped by the check. -/
theorem no_signal_no_quit [IsStrictOrderedRing R] (J : Job R X) (t0 : R) (x0 : X) (fuel : Nat)
    (hs : ∀ k r, J.early k r = false ∧ J.wall k r = false) :
    (loop J fuel 0 (startNew J t0 x0) x0).1 ≠ .quit := by
  intro h
  obtain ⟨n, -, r, -, h | h⟩ := (main_loop_new J t0 x0 fuel).quit h
  · rw [(hs n r).1] at h; simp at h
  · rw [(hs n r).2] at h; simp at h

/-- **Disagreement.**  A signal that arrives between the read and the reset of the flag in `ath_sig_act`
is lost: whatever such signals arrive, the run is the same as without them. -/
theorem signal_lost_false (J : Job R X) (fuel k : Nat) (cs : List (Ctl R)) (x : X) :
    loop J fuel k cs x = loop { J with late := fun _ _ => false } fuel k cs x := by
  have hcond : ∀ c, cond J c = cond { J with late := fun _ _ => false } c := fun _ => rfl
  have hsig : ∀ k cs, sigAct J k cs = sigAct { J with late := fun _ _ => false } k cs := by
    intro k cs
    unfold sigAct
    dsimp only
    refine Prod.ext rfl ?_
    dsimp only
    apply List.map_congr_left
    rintro ⟨c, r⟩ -
    dsimp only
    split_ifs <;> rfl
  induction fuel generalizing k cs x with
  | zero => unfold loop; rfl
  | succ fuel ih =>
    unfold loop
    simp only [hsig, ih]
    rfl

/-- The witness: a run of two cycles in which SIGTERM arrives in the first, and which is not stopped. -/
example : (loop (exJob 2 (-1) (fun _ _ => false) (fun k _ => k == 0)) 9 0
    (startNew (exJob 2 (-1) (fun _ _ => false) (fun k _ => k == 0)) 0 ()) ()).1 = .limit := by decide +kernel

/-- Non-vacuity of `signal_stops`: SIGTERM in cycle 1 of a run that would have five. -/
example : 1 < (loop (exJob 5 (-1) (fun k _ => k == 1) (fun _ _ => false)) 9 0
    (startNew (exJob 5 (-1) (fun k _ => k == 1) (fun _ _ => false)) 0 ()) ()).2.2.2.length := by decide +kernel

/-! ## C24: growth of the time step over a run -/

/-- **C24, over a run.**  Every step after the first is at most twice the one before it. -/
theorem dt_growth [IsStrictOrderedRing R] (J : Job R X) (t0 : R) (x0 : X) (fuel i : Nat) (a b : R) :
    let dts := (loop J fuel 0 (startNew J t0 x0) x0).2.2.2
    dts[i]? = some a → dts[i+1]? = some b → b ≤ 2 * a := by
  dsimp only
  rw [startNew_eq, loop_replicate _ _ _ _ _ rfl]
  dsimp only
  generalize (⟨t0, 0, newDt1 J x0 ⟨t0, 0, ⊤, 0, 0⟩, 0, 0⟩ : Ctl R) = c0
  have head : ∀ (fuel k : Nat) (c : Ctl R) (x : X) (b : R), (loop1 J fuel k c x).2.2.2[0]? = some b →
      c.dt = (b : WithTop R) := by
    intro fuel k c x b h
    unfold loop1 at h
    by_cases h1 : cond J c = false
    · rw [if_pos h1] at h; simp at h
    · rw [if_neg h1] at h
      cases fuel with
      | zero => simp at h
      | succ fuel =>
        cases hdt : finite? c.dt with
        | none => simp only [hdt] at h; simp at h
        | some dt =>
          simp only [hdt] at h
          split_ifs at h <;> simp at h <;> subst h <;> exact hdt
  have key : ∀ (fuel k : Nat) (c : Ctl R) (x : X) (i : Nat), (loop1 J fuel k c x).2.2.2[i]? = some a →
      (loop1 J fuel k c x).2.2.2[i+1]? = some b → b ≤ 2 * a := by
    intro fuel
    induction fuel with
    | zero =>
      intro k c x i h
      unfold loop1 at h
      split_ifs at h <;> simp at h
    | succ fuel ih =>
      intro k c x i h h'
      unfold loop1 at h h'
      by_cases h1 : cond J c = false
      · rw [if_pos h1] at h; simp at h
      · rw [if_neg h1] at h h'
        cases hdt : finite? c.dt with
        | none => simp only [hdt] at h; simp at h
        | some dt =>
          simp only [hdt] at h h'
          by_cases h2 : quitVal J k c.iquit ≠ 0
          · rw [if_pos h2] at h'; simp at h'
          · rw [if_neg h2] at h h'
            cases i with
            | succ i =>
              simp only [List.getElem?_cons_succ] at h h'
              exact ih _ _ _ i h h'
            | zero =>
              simp only [List.getElem?_cons_succ, List.getElem?_cons_zero, Option.some.injEq] at h h'
              subst h
              have hb := head _ _ _ _ _ h'
              have := (newDt1_spec J (J.adv dt x) (advance dt c)).1 _
                (Or.inr (Or.inl ⟨by show c.nstep + 1 ≠ 0; omega, rfl⟩))
              have hcd : (advance dt c).dt = (dt : WithTop R) := hdt
              rw [hcd, WithTop.map_coe] at this
              have hb' : newDt1 J (J.adv dt x) (advance dt c) = (b : WithTop R) := hb
              rw [hb', WithTop.coe_le_coe] at this
              exact this
  exact key fuel 0 c0 x0 i

end Athena.Run
