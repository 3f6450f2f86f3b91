import Verif.Run.Main
import Mathlib.Tactic.Linarith
import Mathlib.Tactic.Ring
import Mathlib.Algebra.Order.Archimedean.Basic

/-! Lemmas: all ranks stay in lock step, so that the loop is the loop of one rank. -/

namespace Athena.Run

variable {R : Type} [Field R] [LinearOrder R] {X : Type}

/-- The new time step of a rank. -/
def newDt1 (J : Job R X) (x : X) (c : Ctl R) : WithTop R :=
  let g := allMin (J.ranks.map (fun r => quot J.cour (J.maxDti x r)))
  match J.maxDtiDiff with
  | none => limitDt J.tlim g c
  | some d => min (limitDt J.tlim g c) (allMin (J.ranks.map (fun r => quot J.cour (d x r))))

theorem newDt_eq (J : Job R X) (x : X) (cs : List (Ctl R)) :
    newDt J x cs = cs.map (fun c => { c with dt := newDt1 J x c }) := by
  unfold newDt newDt1
  cases J.maxDtiDiff <;> rfl

/-- The reduced `iquit` of cycle `k`. -/
def quitVal (J : Job R X) (k : Nat) (iquit : Int) : Int :=
  allMax (J.ranks.map fun r =>
    let i := if J.wall k r then WTQUIT else iquit
    let s := if J.early k r then SIGTERM else 0
    if s > i then s else i) 0

theorem zipIdx_replicate {α : Type*} (n m : Nat) (c : α) :
    (List.replicate n c).zipIdx m = (List.range' m n).map (fun r => (c, r)) := by
  induction n generalizing m with
  | zero => rfl
  | succ n ih => simp [List.replicate_succ, List.range'_succ, ih]

theorem sigAct_replicate (J : Job R X) (k : Nat) (c : Ctl R) (hc : c.sig = 0) :
    sigAct J k (List.replicate (J.extra+1) c) = (quitVal J k c.iquit,
      List.replicate (J.extra+1) { c with iquit := quitVal J k c.iquit, sig := 0 }) := by
  have e1 : (List.replicate (J.extra+1) c).zipIdx = J.ranks.map (fun r => (c, r)) := by
    rw [zipIdx_replicate, Job.ranks, List.range_eq_range']
  unfold sigAct
  dsimp only
  rw [e1, List.map_map, List.map_map]
  have e2 : allMax (List.map ((fun x : Ctl R × Nat => match x with
      | (c, r) =>
        if (if J.early k r = true then SIGTERM else c.sig) > (if J.wall k r = true then WTQUIT else c.iquit)
        then (if J.early k r = true then SIGTERM else c.sig)
        else (if J.wall k r = true then WTQUIT else c.iquit)) ∘ fun r => (c, r)) J.ranks) 0 =
      quitVal J k c.iquit := by
    unfold quitVal
    rw [← hc]
    rfl
  refine Prod.ext e2 ?_
  rw [List.eq_replicate_iff]
  constructor
  · simp [Job.ranks]
  · intro b hb
    obtain ⟨r, -, rfl⟩ := List.mem_map.1 hb
    simp only [Function.comp_apply]
    rw [← e2]
    split_ifs <;> rfl

/-- A cycle of one rank: advance, new time step, signals. -/
def cyc (J : Job R X) (k : Nat) (dt : R) (c : Ctl R) (x : X) : Ctl R :=
  { advance dt c with dt := newDt1 J (J.adv dt x) (advance dt c), iquit := quitVal J k c.iquit, sig := 0 }

/-- The loop of one rank. -/
def loop1 (J : Job R X) : Nat → Nat → Ctl R → X → Stat × Ctl R × X × List R
  | fuel, k, c, x =>
    if cond J c = false then (.limit, c, x, [])
    else
      match fuel with
      | 0 => (.running, c, x, [])
      | fuel+1 =>
        match finite? c.dt with
        | some dt =>
          if quitVal J k c.iquit ≠ 0 then (.quit, cyc J k dt c x, J.adv dt x, [dt])
          else
            let r := loop1 J fuel (k+1) (cyc J k dt c x) (J.adv dt x)
            (r.1, r.2.1, r.2.2.1, dt :: r.2.2.2)
        | none => (.infinite, c, x, [])

theorem loop_replicate (J : Job R X) : ∀ (fuel k : Nat) (c : Ctl R) (x : X), c.sig = 0 →
    loop J fuel k (List.replicate (J.extra+1) c) x =
      ((loop1 J fuel k c x).1, List.replicate (J.extra+1) (loop1 J fuel k c x).2.1,
       (loop1 J fuel k c x).2.2.1, (loop1 J fuel k c x).2.2.2) := by
  intro fuel
  induction fuel with
  | zero =>
    intro k c x hc
    unfold loop loop1
    cases h : cond J c
    · simp [h]
    · simp [h]
  | succ fuel ih =>
    intro k c x hc
    unfold loop loop1
    cases h : cond J c
    · simp [h]
    · have e1 : (List.replicate (J.extra+1) c).all (fun c => !cond J c) = false := by simp [h]
      have e2 : (List.replicate (J.extra+1) c).any (fun c => !cond J c) = false := by simp [h]
      rw [e1, e2]
      simp only [Bool.false_eq_true, if_false, Bool.true_eq_false]
      have e3 : (List.replicate (J.extra+1) c).head?.bind (fun c => finite? c.dt) = finite? c.dt := rfl
      rw [e3]
      cases hdt : finite? c.dt with
      | none => rfl
      | some dt =>
        have e4 : advanceAll (List.replicate (J.extra+1) c) = List.replicate (J.extra+1) (advance dt c) := by
          unfold advanceAll
          rw [List.map_replicate, hdt]
        have e5 := newDt_eq J (J.adv dt x) (List.replicate (J.extra+1) (advance dt c))
        rw [List.map_replicate] at e5
        have e6 := sigAct_replicate J k { advance dt c with dt := newDt1 J (J.adv dt x) (advance dt c) } hc
        simp only [e4, e5, e6]
        by_cases hq : quitVal J k c.iquit = 0
        · have := ih (k+1) (cyc J k dt c x) (J.adv dt x) rfl
          have hq' : ¬ quitVal J k (advance dt c).iquit ≠ 0 := not_not.2 hq
          rw [if_neg hq', if_neg (not_not.2 hq)]
          have e7 : ({ nstep := (advance dt c).nstep, time := (advance dt c).time, dt := newDt1 J (J.adv dt x) (advance dt c), iquit := quitVal J k (advance dt c).iquit, sig := 0 } : Ctl R) = cyc J k dt c x := rfl
          rw [e7, this]
        · have hq' : quitVal J k (advance dt c).iquit ≠ 0 := hq
          rw [if_pos hq', if_pos hq]
          rfl

/-! ### Reductions -/

theorem foldl_min_le {α : Type*} [LinearOrder α] (l : List α) : ∀ a : α, l.foldl min a ≤ a ∧ (∀ b ∈ l, l.foldl min a ≤ b) ∧
    (l.foldl min a = a ∨ l.foldl min a ∈ l) := by
  induction l with
  | nil => intro a; simp
  | cons b l ih =>
    intro a
    obtain ⟨h1, h2, h3⟩ := ih (min a b)
    simp only [List.foldl_cons]
    refine ⟨h1.trans (min_le_left _ _), ?_, ?_⟩
    · intro x hx
      rcases List.mem_cons.1 hx with rfl | hx
      · exact h1.trans (min_le_right _ _)
      · exact h2 x hx
    · rcases h3 with h3 | h3
      · rcases min_choice a b with h | h
        · left; rw [h3, h]
        · right; rw [h3, h]; simp
      · right; simp [h3]

theorem allMin_le {l : List (WithTop R)} {b : WithTop R} (h : b ∈ l) : allMin l ≤ b := (foldl_min_le l ⊤).2.1 b h

theorem allMin_mem {l : List (WithTop R)} (h : l ≠ []) : allMin l ∈ l := by
  rcases (foldl_min_le l ⊤).2.2 with e | e
  · cases l with
    | nil => exact absurd rfl h
    | cons b l =>
      have : (b :: l).foldl min ⊤ ≤ b := (foldl_min_le (b :: l) ⊤).2.1 b (by simp)
      have hb : b = ⊤ := top_le_iff.1 (e ▸ this)
      show (b :: l).foldl min ⊤ ∈ b :: l
      rw [e, hb]; simp
  · exact e

theorem foldl_max_ge (l : List Int) : ∀ a : Int, a ≤ l.foldl max a ∧ (∀ b ∈ l, b ≤ l.foldl max a) ∧
    (l.foldl max a = a ∨ l.foldl max a ∈ l) := by
  induction l with
  | nil => intro a; simp
  | cons b l ih =>
    intro a
    obtain ⟨h1, h2, h3⟩ := ih (max a b)
    simp only [List.foldl_cons]
    refine ⟨(le_max_left _ _).trans h1, ?_, ?_⟩
    · intro x hx
      rcases List.mem_cons.1 hx with rfl | hx
      · exact (le_max_right _ _).trans h1
      · exact h2 x hx
    · rcases h3 with h3 | h3
      · rcases max_choice a b with h | h
        · left; rw [h3, h]
        · right; rw [h3, h]; simp
      · right; simp [h3]

/-- A cycle ends the run exactly if a signal or the wall clock asks for it on some rank. -/
theorem quitVal_ne_zero (J : Job R X) (k : Nat) : quitVal J k 0 ≠ 0 ↔
    ∃ r, r ≤ J.extra ∧ (J.early k r = true ∨ J.wall k r = true) := by
  unfold quitVal allMax
  constructor
  · intro h
    rcases (foldl_max_ge _ 0).2.2 with e | e
    · exact absurd e h
    · obtain ⟨r, hr, e'⟩ := List.mem_map.1 e
      have hr' : r ≤ J.extra := by
        simp only [Job.ranks, List.mem_range] at hr; omega
      refine ⟨r, hr', ?_⟩
      by_contra hc
      simp only [not_or, Bool.not_eq_true] at hc
      rw [← e', hc.1, hc.2] at h
      simp at h
  · rintro ⟨r, hr, h⟩
    have hmem : r ∈ J.ranks := by simp only [Job.ranks, List.mem_range]; omega
    have hle := (foldl_max_ge (J.ranks.map fun r =>
      let i := if J.wall k r then WTQUIT else 0
      let s := if J.early k r then SIGTERM else 0
      if s > i then s else i) 0).2.1 _ (List.mem_map_of_mem hmem)
    intro e
    rw [e] at hle
    dsimp only at hle
    unfold WTQUIT SIGTERM at hle
    rcases h with h | h
    · rw [h] at hle
      cases hw : J.wall k r <;> rw [hw] at hle <;> simp at hle
    · rw [h] at hle
      cases hw : J.early k r <;> rw [hw] at hle <;> simp at hle

theorem quitVal_nonneg (J : Job R X) (k : Nat) (i : Int) : 0 ≤ quitVal J k i := (foldl_max_ge _ 0).1

end Athena.Run
