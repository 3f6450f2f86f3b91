import Verif.Run.Output
import Verif.Par.DbProps
import Mathlib.Tactic.Linarith
import Mathlib.Tactic.Ring
import Mathlib.Data.List.Chain
import Mathlib.Algebra.Order.Ring.Rat
import Mathlib.Algebra.Field.Rat
import Mathlib.Tactic.NormNum

/-!
# Property C08 (src/output.c): numbering and scheduling of outputs
-/

namespace Athena.Run
open Athena.Par

variable {R : Type} [Field R] [LinearOrder R]

/-- A history of calls `data_output(pM,flag)`: the simulation time and the flag of each call.  The
result has the list of events of each call. -/
def runCalls (F : DFmt R) : List (R × Bool) → DB → Outs R → Res (DB × Outs R × List (List (Event R)))
  | [], db, s => .ok (db, s, [])
  | c :: cs, db, s => do
    let (db, s, e) ← dataOutput F c.1 c.2 db s
    let (db, s, es) ← runCalls F cs db s
    return (db, s, e :: es)

/-- The numbers of the dumps of output block `n` among some events. -/
def numsOf (n : Int) (es : List (Event R)) : List Int :=
  es.filterMap fun
    | .dump m k _ => if m = n then some k else none
    | .restart .. => none

/-- The numbers of the restart files among some events. -/
def rstNums (es : List (Event R)) : List Int :=
  es.filterMap fun
    | .dump .. => none
    | .restart k _ _ => some k

/-! ## One output -/

def stepOut (time : R) (flag : Bool) (o : Out R) : Out R := (write time (check time flag o)).1

def evOut (time : R) (flag : Bool) (o : Out R) : List (Event R) := (write time (check time flag o)).2

theorem stepOut_eq (time : R) (flag : Bool) (o : Out R) : stepOut time flag o =
    ⟨o.n, if o.t ≤ time then o.t + o.dt else o.t, o.dt,
     if flag = true ∨ o.t ≤ time then o.num + 1 else o.num⟩ := by
  unfold stepOut write check
  by_cases h : o.t ≤ time
  · simp [h]
  · cases flag <;> simp [h]

theorem evOut_eq (time : R) (flag : Bool) (o : Out R) : evOut time flag o =
    if flag = true ∨ o.t ≤ time then [.dump o.n o.num time] else [] := by
  unfold evOut write check
  by_cases h : o.t ≤ time
  · simp [h]
  · cases flag <;> simp [h]

theorem dataOutput_ok {F : DFmt R} {time : R} {flag : Bool} {db db' : DB} {s s' : Outs R}
    {es : List (Event R)} (h : dataOutput F time flag db s = .ok (db', s', es)) :
    s'.arr = s.arr.map (stepOut time flag) ∧ s'.rst = s.rst.map (stepOut time flag) ∧
    ∃ rs, es = rs ++ s.arr.flatMap (evOut time flag) ∧
      (rs = [] ∧ (∀ ro, s.rst = some ro → ¬ (flag = true ∨ ro.t ≤ time)) ∨
       ∃ ro, s.rst = some ro ∧ (flag = true ∨ ro.t ≤ time) ∧ rs = [.restart ro.num time db']) := by
  unfold dataOutput at h
  dsimp only at h
  split_ifs at h with hu
  simp only [Res.ok.injEq, Prod.mk.injEq] at h
  obtain ⟨h1, h2, h3⟩ := h
  subst h2
  have e1 : List.map (fun x => x.1) (List.map (write time) (List.map (check time flag) s.arr)) =
      s.arr.map (stepOut time flag) := by
    simp only [List.map_map]; rfl
  have e2 : List.flatMap (fun x => x.2) (List.map (write time) (List.map (check time flag) s.arr)) =
      s.arr.flatMap (evOut time flag) := by
    simp only [List.flatMap_map]; rfl
  rw [e2] at h3
  cases hr : s.rst with
  | none =>
    simp only [hr] at h1 h3 ⊢
    refine ⟨e1, rfl, [], ?_, Or.inl ⟨rfl, by simp⟩⟩
    exact h3.symm
  | some ro =>
    simp only [hr] at h1 h3 ⊢
    refine ⟨e1, ?_, ?_⟩
    · simp only [Option.map_some]
      unfold check
      rw [stepOut_eq]
      by_cases h : ro.t ≤ time
      · simp [h]
      · cases flag <;> simp [h]
    · unfold check at h1 h3
      by_cases ht : time ≥ ro.t
      · have ht' : ro.t ≤ time := ht
        simp only [ht', ht, if_true] at h1 h3
        rw [h1] at h3
        exact ⟨_, h3.symm, Or.inr ⟨ro, rfl, Or.inr ht', rfl⟩⟩
      · have ht' : ¬ ro.t ≤ time := ht
        cases flag
        · simp only [ht', ht, if_false, Bool.false_eq_true] at h1 h3
          refine ⟨[], h3.symm, Or.inl ⟨rfl, ?_⟩⟩
          rintro r e (h | h)
          · simp at h
          · cases e; exact ht' h
        · simp only [ht, if_false, if_true] at h1 h3
          rw [h1] at h3
          exact ⟨_, h3.symm, Or.inr ⟨ro, rfl, Or.inl rfl, rfl⟩⟩

/-- The history of one output. -/
def foldOut (cs : List (R × Bool)) (o : Out R) : Out R := cs.foldl (fun o c => stepOut c.1 c.2 o) o

theorem runCalls_ok {F : DFmt R} (cs : List (R × Bool)) : ∀ {db db' : DB} {s s' : Outs R}
    {es : List (List (Event R))}, runCalls F cs db s = .ok (db', s', es) →
    s'.arr = s.arr.map (foldOut cs) ∧ s'.rst = s.rst.map (foldOut cs) := by
  induction cs with
  | nil =>
    intro db db' s s' es h
    simp only [runCalls, Res.ok.injEq, Prod.mk.injEq] at h
    obtain ⟨-, rfl, -⟩ := h
    have : foldOut ([] : List (R × Bool)) = id := rfl
    simp [this]
  | cons c cs ih =>
    intro db db' s s' es h
    simp only [runCalls] at h
    cases h1 : dataOutput F c.1 c.2 db s with
    | fatal => rw [h1] at h; simp at h
    | ub => rw [h1] at h; simp at h
    | ok r =>
      obtain ⟨db1, s1, e1⟩ := r
      rw [h1] at h
      simp only [Res.bind_ok] at h
      cases h2 : runCalls F cs db1 s1 with
      | fatal => rw [h2] at h; simp at h
      | ub => rw [h2] at h; simp at h
      | ok r =>
        obtain ⟨db2, s2, e2⟩ := r
        rw [h2] at h
        simp only [Res.bind_ok, Res.pure_eq_ok, Res.ok.injEq, Prod.mk.injEq] at h
        obtain ⟨rfl, rfl, rfl⟩ := h
        have a := dataOutput_ok h1
        have b := ih h2
        rw [b.1, b.2, a.1, a.2.1]
        constructor
        · simp [foldOut, Function.comp_def]
        · cases s.rst <;> simp [foldOut]

theorem foldOut_n (cs : List (R × Bool)) : ∀ o : Out R, (foldOut cs o).n = o.n ∧ (foldOut cs o).dt = o.dt := by
  induction cs with
  | nil => intro o; exact ⟨rfl, rfl⟩
  | cons c cs ih =>
    intro o
    have := ih (stepOut c.1 c.2 o)
    have e1 : (stepOut c.1 c.2 o).n = o.n := by rw [stepOut_eq]
    have e2 : (stepOut c.1 c.2 o).dt = o.dt := by rw [stepOut_eq]
    rw [e1, e2] at this
    exact this

theorem numsOf_append (n : Int) (a b : List (Event R)) : numsOf n (a ++ b) = numsOf n a ++ numsOf n b := by
  simp [numsOf]

theorem numsOf_flatMap (time : R) (flag : Bool) (arr : List (Out R)) (hn : (arr.map (·.n)).Nodup) (o : Out R)
    (ho : o ∈ arr) : numsOf o.n (arr.flatMap (evOut time flag)) =
      if flag = true ∨ o.t ≤ time then [o.num] else [] := by
  have other : ∀ l : List (Out R), o.n ∉ l.map (·.n) → numsOf o.n (l.flatMap (evOut time flag)) = [] := by
    intro l
    induction l with
    | nil => intro _; rfl
    | cons x l ih =>
      intro h
      simp only [List.map_cons, List.mem_cons, not_or] at h
      rw [List.flatMap_cons, numsOf_append, ih h.2, evOut_eq]
      split_ifs
      · simp [numsOf, Ne.symm h.1]
      · simp [numsOf]
  induction arr with
  | nil => simp at ho
  | cons x l ih =>
    simp only [List.map_cons, List.nodup_cons] at hn
    rw [List.flatMap_cons, numsOf_append]
    rcases List.mem_cons.1 ho with rfl | ho
    · rw [other l hn.1, evOut_eq]
      split_ifs <;> simp [numsOf]
    · rw [ih hn.2 ho, evOut_eq]
      have hx : x.n ≠ o.n := by
        intro e; apply hn.1; rw [e]; exact List.mem_map_of_mem ho
      split_ifs <;> simp [numsOf, hx]

/-! ## The property -/

/-- **C08, one call.**  A call of `data_output` writes an output at most once, and exactly when the call
is forced or the simulation time has reached the scheduled time; the dump carries the current number.
The scheduled time moves by exactly the output interval when it has been reached and not otherwise
(a forced dump before schedule does not move it).  The same holds for restart files. -/
theorem dump_call {F : DFmt R} {time : R} {flag : Bool} {db db' : DB} {s s' : Outs R} {es : List (Event R)}
    (h : dataOutput F time flag db s = .ok (db', s', es)) (hn : (s.arr.map (·.n)).Nodup) :
    (∀ (i : Nat) (o : Out R), s.arr[i]? = some o →
      (numsOf o.n es = if flag = true ∨ o.t ≤ time then [o.num] else []) ∧
      s'.arr[i]? = some ⟨o.n, if o.t ≤ time then o.t + o.dt else o.t, o.dt,
        if flag = true ∨ o.t ≤ time then o.num + 1 else o.num⟩) ∧
    (∀ o : Out R, s.rst = some o →
      (rstNums es = if flag = true ∨ o.t ≤ time then [o.num] else []) ∧
      s'.rst = some ⟨o.n, if o.t ≤ time then o.t + o.dt else o.t, o.dt,
        if flag = true ∨ o.t ≤ time then o.num + 1 else o.num⟩) := by
  obtain ⟨h1, h2, rs, rfl, h3⟩ := dataOutput_ok h
  have hd : rstNums (s.arr.flatMap (evOut time flag)) = [] := by
    unfold rstNums
    rw [List.filterMap_eq_nil_iff]
    intro e he
    obtain ⟨o, -, ho⟩ := List.mem_flatMap.1 he
    rw [evOut_eq] at ho
    split_ifs at ho
    · rw [List.mem_singleton] at ho; subst ho; rfl
    · simp at ho
  constructor
  · intro i o hi
    constructor
    · rw [numsOf_append, numsOf_flatMap time flag s.arr hn o (List.mem_of_getElem? hi)]
      rcases h3 with ⟨rfl, -⟩ | ⟨ro, -, -, rfl⟩ <;> simp [numsOf]
    · rw [h1, List.getElem?_map, hi, Option.map_some, stepOut_eq]
  · intro o ho
    constructor
    · have : rstNums (rs ++ s.arr.flatMap (evOut time flag)) = rstNums rs := by
        have : rstNums (rs ++ s.arr.flatMap (evOut time flag)) =
          rstNums rs ++ rstNums (s.arr.flatMap (evOut time flag)) := by simp [rstNums]
        rw [this, hd, List.append_nil]
      rw [this]
      rcases h3 with ⟨rfl, h3⟩ | ⟨ro, hro, h3, rfl⟩
      · rw [if_neg (h3 o ho)]; rfl
      · rw [ho] at hro; cases hro
        rw [if_pos h3]; rfl
    · rw [h2, ho, Option.map_some, stepOut_eq]

/-- **C08, numbering.**  Over any history of calls the dumps of each output are numbered
`num, num+1, num+2, …` without gap or repetition, and the number held afterwards is the next one. -/
theorem dump_numbers {F : DFmt R} (cs : List (R × Bool)) : ∀ {db db' : DB} {s s' : Outs R}
    {es : List (List (Event R))}, runCalls F cs db s = .ok (db', s', es) → (s.arr.map (·.n)).Nodup →
    (∀ (i : Nat) (o : Out R), s.arr[i]? = some o → ∃ (k : Nat) (o' : Out R), s'.arr[i]? = some o' ∧ o'.n = o.n ∧
      o'.num = o.num + k ∧ numsOf o.n es.flatten = (List.range k).map (fun j => o.num + (j : Nat))) ∧
    (∀ o : Out R, s.rst = some o → ∃ (k : Nat) (o' : Out R), s'.rst = some o' ∧ o'.n = o.n ∧
      o'.num = o.num + k ∧ rstNums es.flatten = (List.range k).map (fun j => o.num + (j : Nat))) := by
  induction cs with
  | nil =>
    intro db db' s s' es h _
    simp only [runCalls, Res.ok.injEq, Prod.mk.injEq] at h
    obtain ⟨-, rfl, rfl⟩ := h
    exact ⟨fun i o hi => ⟨0, o, hi, rfl, by simp, rfl⟩, fun o ho => ⟨0, o, ho, rfl, by simp, rfl⟩⟩
  | cons c cs ih =>
    intro db db' s s' es h hn
    simp only [runCalls] at h
    cases h1 : dataOutput F c.1 c.2 db s with
    | fatal => rw [h1] at h; simp at h
    | ub => rw [h1] at h; simp at h
    | ok r =>
      obtain ⟨db1, s1, e1⟩ := r
      rw [h1] at h
      simp only [Res.bind_ok] at h
      cases h2 : runCalls F cs db1 s1 with
      | fatal => rw [h2] at h; simp at h
      | ub => rw [h2] at h; simp at h
      | ok r =>
        obtain ⟨db2, s2, e2⟩ := r
        rw [h2] at h
        simp only [Res.bind_ok, Res.pure_eq_ok, Res.ok.injEq, Prod.mk.injEq] at h
        obtain ⟨rfl, rfl, rfl⟩ := h
        have hc := dump_call h1 hn
        have hn1 : (s1.arr.map (·.n)).Nodup := by
          rw [(dataOutput_ok h1).1]
          have : List.map (fun x => x.n) (List.map (stepOut c.1 c.2) s.arr) = s.arr.map (·.n) := by
            simp [stepOut_eq]
          rw [this]; exact hn
        have hi := ih h2 hn1
        have key : ∀ (a : List Int) (b : List Int) (num : Int) (p : Prop) [Decidable p] (k : Nat),
            a = (if p then [num] else []) →
            b = (List.range k).map (fun j => (if p then num + 1 else num) + (j : Nat)) →
            ∃ k' : Nat, (if p then num + 1 else num) + (k : Int) = num + k' ∧
              a ++ b = (List.range k').map (fun j => num + (j : Nat)) := by
          intro a b num p _ k ha hb
          subst ha hb
          by_cases hp : p
          · refine ⟨k+1, by simp [hp]; ring, ?_⟩
            simp only [hp, if_true]
            rw [List.range_succ_eq_map]
            simp only [List.map_cons, List.map_map, List.singleton_append]
            congr 1
            · simp
            · apply List.map_congr_left
              intro j _
              simp; ring
          · exact ⟨k, by simp [hp], by simp [hp]⟩
        constructor
        · intro i o hio
          have a := hc.1 i o hio
          obtain ⟨k, o', b1, b2, b3, b4⟩ := hi.1 i _ a.2
          dsimp only at b2 b3 b4
          obtain ⟨k', e1', e2'⟩ := key _ _ o.num _ k a.1 b4
          refine ⟨k', o', b1, b2, by rw [b3, e1'], ?_⟩
          rw [List.flatten_cons, numsOf_append, e2']
        · intro o hio
          have a := hc.2 o hio
          obtain ⟨k, o', b1, b2, b3, b4⟩ := hi.2 _ a.2
          dsimp only at b2 b3 b4
          obtain ⟨k', e1', e2'⟩ := key _ _ o.num _ k a.1 b4
          refine ⟨k', o', b1, b2, by rw [b3, e1'], ?_⟩
          rw [List.flatten_cons]
          have : rstNums (e1 ++ e2.flatten) = rstNums e1 ++ rstNums e2.flatten := by simp [rstNums]
          rw [this, e2']

/-- Calls at times that do not decrease and advance by no more than `dt` from one call to the next,
the first one no more than `dt` after `prev`. -/
def StepsWithin (dt : R) : R → List (R × Bool) → Prop
  | _, [] => True
  | prev, c :: cs => prev ≤ c.1 ∧ c.1 ≤ prev + dt ∧ StepsWithin dt c.1 cs

/-- Time of the last call (`t` if there is none). -/
def lastTime (t : R) : List (R × Bool) → R
  | [] => t
  | c :: cs => lastTime c.1 cs

theorem le_lastTime {dt : R} (cs : List (R × Bool)) : ∀ t : R, StepsWithin dt t cs → t ≤ lastTime t cs := by
  induction cs with
  | nil => intro t _; exact le_refl _
  | cons d ds ih => intro t h; exact h.1.trans (ih d.1 h.2.2)

/-- **C08, schedule.**  If the interval is positive, the output is ahead of schedule before a history of
calls (`prev < t`), and no time step is longer than the interval, then after it the scheduled time is the
first member of `t, t+dt, t+2dt, …` after the time of the last call; and if no call is forced the number
of dumps is the number of members of that sequence up to the time of the last call. -/
theorem schedule_ahead [IsStrictOrderedRing R] {F : DFmt R} (cs : List (R × Bool)) {db db' : DB} {s s' : Outs R}
    {es : List (List (Event R))} (h : runCalls F cs db s = .ok (db', s', es))
    (i : Nat) (o : Out R) (hi : s.arr[i]? = some o) (hdt : 0 < o.dt) (prev : R) (hprev : prev < o.t)
    (hs : StepsWithin o.dt prev cs) :
    ∃ (m : Nat) (o' : Out R), s'.arr[i]? = some o' ∧ o'.dt = o.dt ∧ o'.t = o.t + m * o.dt ∧
      (∀ j : Nat, o.t + j * o.dt ≤ lastTime prev cs ↔ j < m) ∧
      ((∀ c ∈ cs, c.2 = false) → o'.num = o.num + m) := by
  have hr := (runCalls_ok cs h).1
  refine Exists.imp (fun m hm => ⟨foldOut cs o, ?_, (foldOut_n cs o).2, hm⟩) ?_
  · rw [hr, List.getElem?_map, hi]; rfl
  clear h hr hi
  induction cs generalizing o prev with
  | nil =>
    refine ⟨0, by simp [foldOut], ?_, by simp [foldOut]⟩
    intro j
    simp only [lastTime, Nat.not_lt_zero, iff_false, not_le]
    have : (0 : R) ≤ j * o.dt := mul_nonneg (Nat.cast_nonneg j) hdt.le
    linarith
  | cons c cs ih =>
    obtain ⟨h1, h2, h3⟩ := hs
    have hdt' : (stepOut c.1 c.2 o).dt = o.dt := by rw [stepOut_eq]
    by_cases ht : o.t ≤ c.1
    · have ht' : (stepOut c.1 c.2 o).t = o.t + o.dt := by rw [stepOut_eq]; simp [ht]
      obtain ⟨m, a1, a2, a3⟩ := ih (stepOut c.1 c.2 o) (by rw [hdt']; exact hdt) c.1
        (by rw [ht']; linarith) (by rw [hdt']; exact h3)
      rw [hdt', ht'] at a1 a2
      refine ⟨m+1, ?_, ?_, ?_⟩
      · show (foldOut cs (stepOut c.1 c.2 o)).t = _
        rw [a1]; push_cast; ring
      · intro j
        cases j with
        | zero =>
          simp only [Nat.cast_zero, zero_mul, add_zero, Nat.zero_lt_succ, iff_true]
          exact ht.trans (le_lastTime cs c.1 h3)
        | succ j =>
          have := a2 j
          rw [Nat.succ_lt_succ_iff, ← this]
          show o.t + ((j+1 : Nat) : R) * o.dt ≤ lastTime c.1 cs ↔ _
          have e : o.t + ((j+1 : Nat) : R) * o.dt = o.t + o.dt + j * o.dt := by push_cast; ring
          rw [e]
      · intro hf
        have := a3 (fun c hc => hf c (by simp [hc]))
        show (foldOut cs (stepOut c.1 c.2 o)).num = _
        rw [this, stepOut_eq]
        simp [ht]; ring
    · have ht' : (stepOut c.1 c.2 o).t = o.t := by rw [stepOut_eq]; simp [ht]
      obtain ⟨m, a1, a2, a3⟩ := ih (stepOut c.1 c.2 o) (by rw [hdt']; exact hdt) c.1
        (by rw [ht']; exact lt_of_not_ge ht) (by rw [hdt']; exact h3)
      rw [hdt', ht'] at a1 a2
      refine ⟨m, a1, a2, ?_⟩
      intro hf
      have := a3 (fun c hc => hf c (by simp [hc]))
      show (foldOut cs (stepOut c.1 c.2 o)).num = _
      rw [this, stepOut_eq]
      have := hf c (by simp)
      simp [ht, this]

/-- A format for the examples: it is never applied to what matters there. -/
def exF : DFmt ℚ := ⟨fun _ => [], fun _ => 0⟩

/-- Non-vacuity: an output every 1/2, three steps of 2/5, nothing forced. -/
example : ∃ db' s' es, runCalls exF [(2/5, false), (4/5, false), (6/5, false)] [] ⟨[⟨1, 1/2, 1/2, 7⟩], none⟩ =
    .ok (db', s', es) ∧ s' = ⟨[⟨1, 3/2, 1/2, 9⟩], none⟩ ∧
    es = [[], [.dump 1 7 (4/5)], [.dump 1 8 (6/5)]] := by
  refine ⟨_, _, _, rfl, ?_, ?_⟩ <;> norm_num [check, write]

/-- If the interval is shorter than the steps, the schedule lags behind and one dump per call is made,
however late (so the bound on the steps in `schedule_ahead` is needed). -/
theorem schedule_lag_false : ∃ (cs : List (ℚ × Bool)) (db' : DB) (s' : Outs ℚ) (es : List (List (Event ℚ))),
    runCalls exF cs [] ⟨[⟨1, 1/2, 1/2, 0⟩], none⟩ = .ok (db', s', es) ∧
    lastTime 0 cs = 10 ∧ s'.arr = [⟨1, 1, 1/2, 1⟩] := by
  refine ⟨[(10, false)], _, _, _, rfl, rfl, ?_⟩
  norm_num [check, write]

/-- **Disagreement.**  `data_output` keeps its flags in an array of `MAXOUT_DEFAULT+1 = 11` elements, but
`job/maxout` may be larger: with more than eleven outputs it writes out of bounds. -/
theorem data_output_overflow (F : DFmt R) (time : R) (flag : Bool) (db : DB) (s : Outs R)
    (h : 11 < s.arr.length) : dataOutput F time flag db s = .ub := by
  unfold dataOutput
  dsimp only
  rw [if_pos]
  unfold MAXOUT
  omega

end Athena.Run
