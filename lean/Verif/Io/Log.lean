import Verif.Base
import Mathlib.Tactic.Linarith

/-!
# src/ath_log.c: the output and error logs; C44

A call of the public functions of ath_log.c is an `Op`; what a user can see of it is a list of events.
The two streams are handled by duplicated code in the C file; here one definition takes the stream as an
argument.  Message texts stand for the result of formatting.
-/

namespace Athena.Log

/-- The two streams: `ath_pout` / `ath_perr`. -/
inductive Sd where
  | out | err
  deriving DecidableEq, Repr

/-- A log file `<basename>.out` or `<basename>.err`. -/
structure File where
  base : String
  sd : Sd
  deriving DecidableEq, Repr

/-- Where a line goes: `stdout`/`stderr` or a log file. -/
inductive Target where
  | std (sd : Sd)
  | file (f : File)
  deriving DecidableEq, Repr

/-- Observable effects: a file is opened (for appending or truncated), a failure to open is reported on
`stderr`, the separator line is written, a message is written. -/
inductive Ev where
  | opened (f : File) (append : Bool)
  | failed (f : File)
  | sep (f : File)
  | msg (t : Target) (text : String)
  deriving DecidableEq, Repr

/-- The static variables of one stream: `out_level`, `ath_fp_out`, `out_fname`, `open_out_flag`
(src/ath_log.c:45-54). -/
structure Strm where
  level : ℤ
  fp : Option File
  fname : Option File
  flag : Bool
  deriving DecidableEq, Repr

/-- All static variables (`log_mode[0] == 'a'` is `append`), and what the system answers: `canOpen` decides
whether the `n`-th `fopen` succeeds and `exists'` whether the `n`-th `stat` finds the file. -/
structure St where
  strm : Sd → Strm
  append : Bool
  tries : ℕ

/-- The system's answers. -/
structure Sys where
  canOpen : ℕ → Bool
  exists' : ℕ → Bool

/-- Initial values, src/ath_log.c:45-57. -/
def init : St := ⟨fun _ => ⟨0, none, none, false⟩, false, 0⟩

/-- Assignment to the variables of one stream. -/
def St.set (s : St) (sd : Sd) (x : Strm) : St :=
  { s with strm := fun y => if y = sd then x else s.strm y }

/-- `ath_log_out_open`, `ath_log_err_open`, src/ath_log.c:64-86, 92-114: returns true on failure.
`fopen(NULL, …)` is undefined. -/
def openStrm (sys : Sys) (s : St) (sd : Sd) : Res (Bool × St × List Ev) :=
  let x := s.strm sd
  match x.fname with
  | none => .ub
  | some f =>
    let existed := s.append && sys.exists' s.tries
    if sys.canOpen s.tries then
      .ok (false, { s.set sd { x with flag := false, fp := some f } with tries := s.tries + 1 },
        .opened f s.append :: (if existed then [.sep f] else []))
    else
      .ok (true, { s.set sd { x with flag := false, fp := none } with tries := s.tries + 1 }, [.failed f])

/-- The calls. -/
inductive Op where
  | setLevel (out err : ℤ)
  | open' (base : String) (lazy' append : Bool)
  | close
  | print (sd : Sd) (level : ℤ) (text : String)
  | fp (sd : Sd)
  | flush (sd : Sd)
  deriving DecidableEq, Repr

/-- "Open the log file if it needs to be opened", src/ath_log.c:216, 231, 292, 322. -/
def openIf (sys : Sys) (s : St) (sd : Sd) : Res (St × List Ev) :=
  if (s.strm sd).flag then do
    let (_, s', ev) ← openStrm sys s sd
    return (s', ev)
  else return (s, [])

/-- `(ath_fp_out == NULL ? stdout : ath_fp_out)`. -/
def target (s : St) (sd : Sd) : Target :=
  match (s.strm sd).fp with
  | none => .std sd
  | some f => .file f

/-- One call: `ath_log_set_level` (:125-131), `ath_log_open` (:146-179), `ath_log_close` (:185-201),
`athout_fp`/`atherr_fp` (:207-230), `ath_flush_out`/`ath_flush_err` (:236-263), `ath_perr`/`ath_pout`
(:275-333).  `exit(EXIT_FAILURE)` is `fatal`. -/
def step (sys : Sys) (s : St) : Op → Res (St × List Ev)
  | .setLevel o e =>
    return ((s.set .out { s.strm .out with level := o }).set .err { s.strm .err with level := e }, [])
  | .open' base lz ap => do
    let s1 := (s.set .out { s.strm .out with fname := some ⟨base, .out⟩, flag := true }).set .err
      { s.strm .err with fname := some ⟨base, .err⟩, flag := true }
    let s1 := { s1 with append := ap }
    if lz then return (s1, [])
    else
      let (e1, s2, v1) ← openStrm sys s1 .out
      if e1 then .fatal
      else
        let (e2, s3, v2) ← openStrm sys s2 .err
        if e2 then .fatal else return (s3, v1 ++ v2)
  | .close =>
    return ((s.set .out { s.strm .out with flag := false, fname := none, fp := none }).set .err
      { s.strm .err with flag := false, fname := none, fp := none }, [])
  | .fp sd => openIf sys s sd
  | .flush _ => return (s, [])
  | .print sd level text =>
    if level ≤ (s.strm sd).level then do
      let (s', ev) ← openIf sys s sd
      return (s', ev ++ [.msg (target s' sd) text])
    else return (s, [])

/-- A sequence of calls from a state. -/
def run (sys : Sys) (s : St) : List Op → Res (St × List Ev)
  | [] => return (s, [])
  | op :: ops => do
    let (s1, e1) ← step sys s op
    let (s2, e2) ← run sys s1 ops
    return (s2, e1 ++ e2)

/-! ## Specification -/

/-- The messages of one stream among the events. -/
def messages (sd : Sd) (evs : List Ev) : List String :=
  evs.filterMap fun e => match e with
    | .msg (.std sd') t => if sd' = sd then some t else none
    | .msg (.file f) t => if f.sd = sd then some t else none
    | _ => none

/-- C44: what each stream should show: a message is shown exactly if its level does not exceed the level
last set for its stream (0 if none was set). -/
def expected (sd : Sd) : ℤ → List Op → List String
  | _, [] => []
  | _, .setLevel o e :: ops => expected sd (if sd = .out then o else e) ops
  | l, .print sd' k t :: ops =>
    (if sd' = sd ∧ k ≤ l then [t] else []) ++ expected sd l ops
  | l, .open' .. :: ops | l, .close :: ops | l, .fp _ :: ops | l, .flush _ :: ops => expected sd l ops

/-! ## Lemmas -/

/-- A stream that must be opened has a file name; names and open files belong to their stream. -/
def Inv (s : St) : Prop :=
  ∀ sd, ((s.strm sd).flag = true → (s.strm sd).fname ≠ none) ∧
    (∀ f, (s.strm sd).fname = some f → f.sd = sd) ∧ (∀ f, (s.strm sd).fp = some f → f.sd = sd)

theorem inv_init : Inv init := fun sd => by simp [init]

theorem set_same (s : St) (sd : Sd) (x : Strm) : (s.set sd x).strm sd = x := if_pos rfl
theorem set_ne (s : St) {sd sd' : Sd} (x : Strm) (h : sd' ≠ sd) : (s.set sd x).strm sd' = s.strm sd' :=
  if_neg h

theorem messages_append (sd : Sd) (a b : List Ev) : messages sd (a ++ b) = messages sd a ++ messages sd b := by
  simp [messages]

/-- Opening a stream that has a name. -/
theorem openStrm_spec (sys : Sys) (s : St) (sd : Sd) (hi : Inv s) (hn : (s.strm sd).fname ≠ none) :
    ∃ e s' ev, openStrm sys s sd = .ok (e, s', ev) ∧ Inv s' ∧ (∀ sd', messages sd' ev = []) ∧
      (∀ sd', (s'.strm sd').level = (s.strm sd').level) ∧
      (∀ sd', (s'.strm sd').fname = (s.strm sd').fname) ∧
      (s'.strm sd).flag = false ∧ (∀ sd', sd' ≠ sd → s'.strm sd' = s.strm sd') ∧
      (e = false → (s'.strm sd).fp = (s.strm sd).fname) ∧ (e = true → (s'.strm sd).fp = none) ∧
      (e = !sys.canOpen s.tries) := by
  obtain ⟨f, hf⟩ := Option.ne_none_iff_exists'.mp hn
  unfold openStrm
  simp only [hf]
  have hk : ∀ (x : Strm) (b : ℕ), x.flag = false → x.fname = some f → (∀ g, x.fp = some g → g.sd = sd) →
      Inv { s.set sd x with tries := b } := by
    intro x b h1 h2 h3 sd'
    by_cases h : sd' = sd
    · subst h
      have e : ({ s.set sd' x with tries := b } : St).strm sd' = x := set_same s sd' x
      rw [e]
      refine ⟨by simp [h1], ?_, h3⟩
      intro g hg; rw [h2] at hg; cases hg
      exact (hi sd').2.1 f hf
    · have e : ({ s.set sd x with tries := b } : St).strm sd' = s.strm sd' := set_ne s x h
      rw [e]; exact hi sd'
  have hse : ∀ (x : Strm) (b : ℕ) (sd' : Sd), ({ s.set sd x with tries := b } : St).strm sd'
      = if sd' = sd then x else s.strm sd' := fun _ _ _ => rfl
  by_cases hc : sys.canOpen s.tries = true
  · rw [if_pos hc]
    refine ⟨_, _, _, rfl, hk _ _ rfl rfl ?_, ?_, ?_, ?_, ?_, ?_, ?_, ?_, ?_⟩
    · rintro g ⟨⟩; exact (hi sd).2.1 f hf
    · intro sd'; simp only [messages]; split <;> simp
    · intro sd'; rw [hse]; split_ifs with h
      · rw [h]
      · rfl
    · intro sd'; rw [hse]; split_ifs with h
      · rw [h, hf]
      · rfl
    · rw [hse, if_pos rfl]
    · intro sd' h; rw [hse, if_neg h]
    · intro; rw [hse, if_pos rfl]
    · simp
    · simp [hc]
  · rw [if_neg hc]
    refine ⟨_, _, _, rfl, hk _ _ rfl rfl ?_, ?_, ?_, ?_, ?_, ?_, ?_, ?_, ?_⟩
    · rintro g ⟨⟩
    · intro sd'; simp [messages]
    · intro sd'; rw [hse]; split_ifs with h
      · rw [h]
      · rfl
    · intro sd'; rw [hse]; split_ifs with h
      · rw [h, hf]
      · rfl
    · rw [hse, if_pos rfl]
    · intro sd' h; rw [hse, if_neg h]
    · simp
    · intro; rw [hse, if_pos rfl]
    · simp [hc]

theorem openIf_spec (sys : Sys) (s : St) (sd : Sd) (hi : Inv s) :
    ∃ s' ev, openIf sys s sd = .ok (s', ev) ∧ Inv s' ∧ (∀ sd', messages sd' ev = []) ∧
      (∀ sd', (s'.strm sd').level = (s.strm sd').level) ∧
      (∀ sd', (s'.strm sd').fname = (s.strm sd').fname) ∧
      (s'.strm sd).flag = false ∧ (∀ sd', sd' ≠ sd → s'.strm sd' = s.strm sd') ∧
      ((s.strm sd).flag = false → s' = s ∧ ev = []) := by
  unfold openIf
  by_cases h : (s.strm sd).flag = true
  · rw [if_pos h]
    obtain ⟨e, s', ev, h1, h2, h3, h4, h5, h6, h7, -⟩ := openStrm_spec sys s sd hi ((hi sd).1 h)
    rw [h1]
    exact ⟨s', ev, rfl, h2, h3, h4, h5, h6, h7, by simp [h]⟩
  · rw [if_neg h]
    have h' : (s.strm sd).flag = false := by simpa using h
    exact ⟨s, [], rfl, hi, by simp [messages], fun _ => rfl, fun _ => rfl, h', fun _ _ => rfl,
      fun _ => ⟨rfl, rfl⟩⟩

theorem messages_msg (s : St) (hi : Inv s) (sd sd' : Sd) (t : String) :
    messages sd' [.msg (target s sd) t] = if sd = sd' then [t] else [] := by
  unfold target
  split
  · simp only [messages, List.filterMap_cons, List.filterMap_nil]
    split_ifs <;> rfl
  · rename_i f hf
    have := (hi sd).2.2 f hf
    simp only [messages, List.filterMap_cons, List.filterMap_nil, this]
    split_ifs <;> rfl

/-- Every call keeps the invariant and is never undefined; what it adds to the streams is what
`expected` says. -/
theorem step_spec (sys : Sys) (s : St) (op : Op) (hi : Inv s) :
    step sys s op = .fatal ∨ ∃ s' ev, step sys s op = .ok (s', ev) ∧ Inv s' ∧
      ∀ sd ops, messages sd ev ++ expected sd (s'.strm sd).level ops
        = expected sd (s.strm sd).level (op :: ops) := by
  cases op with
  | setLevel o e =>
    refine Or.inr ⟨_, _, rfl, ?_, ?_⟩
    · intro sd; have := hi sd
      cases sd <;> simpa [St.set] using this
    · intro sd ops; cases sd <;> simp [St.set, messages, expected]
  | close =>
    refine Or.inr ⟨_, _, rfl, ?_, ?_⟩
    · intro sd; cases sd <;> simp [St.set]
    · intro sd ops; cases sd <;> simp [St.set, messages, expected]
  | flush sd =>
    exact Or.inr ⟨s, [], rfl, hi, fun sd ops => by simp [messages, expected]⟩
  | fp sd =>
    obtain ⟨s', ev, h1, h2, h3, h4, -⟩ := openIf_spec sys s sd hi
    exact Or.inr ⟨s', ev, h1, h2, fun sd' ops => by rw [h3, h4]; rfl⟩
  | print sd k t =>
    by_cases h : k ≤ (s.strm sd).level
    · obtain ⟨s', ev, h1, h2, h3, h4, -⟩ := openIf_spec sys s sd hi
      refine Or.inr ⟨s', ev ++ [.msg (target s' sd) t], ?_, h2, ?_⟩
      · simp only [step, if_pos h, h1, Res.bind_ok, Res.pure_eq_ok]
      · intro sd' ops
        rw [messages_append, h3, List.nil_append, messages_msg s' h2, h4]
        simp only [expected]
        by_cases hs : sd = sd'
        · subst hs; simp [h]
        · simp [hs]
    · refine Or.inr ⟨s, [], by simp only [step, if_neg h]; rfl, hi, ?_⟩
      intro sd' ops
      simp only [messages, List.filterMap_nil, List.nil_append, expected]
      by_cases hs : sd = sd'
      · subst hs; simp [h]
      · simp [hs]
  | open' base lz ap =>
    set s1 : St := { (s.set .out { s.strm .out with fname := some ⟨base, .out⟩, flag := true }).set .err
      { s.strm .err with fname := some ⟨base, .err⟩, flag := true } with append := ap } with hs1
    have i1 : Inv s1 := by
      intro sd; have := (hi sd).2.2
      cases sd <;> simpa [hs1, St.set] using this
    have l1 : ∀ sd, (s1.strm sd).level = (s.strm sd).level := by intro sd; cases sd <;> rfl
    by_cases hl : lz = true
    · refine Or.inr ⟨s1, [], by simp only [step, hl]; rfl, i1, ?_⟩
      intro sd ops; rw [l1]; simp [messages, expected]
    · obtain ⟨e1, s2, v1, h1, i2, m1, l2, n2, -, -⟩ := openStrm_spec sys s1 .out i1 (by simp [hs1, St.set])
      obtain ⟨e2, s3, v2, h2, i3, m2, l3, -, -, -⟩ := openStrm_spec sys s2 .err i2
        (by rw [n2]; simp [hs1, St.set])
      have hstep : step sys s (.open' base lz ap)
          = if e1 then .fatal else if e2 then .fatal else .ok (s3, v1 ++ v2) := by
        simp only [step, if_neg hl, ← hs1, h1, Res.bind_ok]
        split_ifs <;> simp_all
      rw [hstep]
      by_cases hf1 : e1 = true
      · left; rw [if_pos hf1]
      · rw [if_neg hf1]
        by_cases hf2 : e2 = true
        · left; rw [if_pos hf2]
        · rw [if_neg hf2]
          refine Or.inr ⟨s3, v1 ++ v2, rfl, i3, ?_⟩
          intro sd ops
          rw [messages_append, m1, m2, l3, l2, l1]; simp [expected]

theorem run_spec (sys : Sys) (ops : List Op) : ∀ s, Inv s →
    run sys s ops = .fatal ∨ ∃ s' ev, run sys s ops = .ok (s', ev) ∧ Inv s' ∧
      ∀ sd, messages sd ev = expected sd (s.strm sd).level ops := by
  induction ops with
  | nil => intro s hi; exact Or.inr ⟨s, [], rfl, hi, fun sd => rfl⟩
  | cons op ops ih =>
    intro s hi
    rcases step_spec sys s op hi with h | ⟨s1, e1, h1, i1, k1⟩
    · left; simp [run, h]
    · rcases ih s1 i1 with h | ⟨s2, e2, h2, i2, k2⟩
      · left; simp [run, h1, h]
      · refine Or.inr ⟨s2, e1 ++ e2, by simp [run, h1, h2], i2, ?_⟩
        intro sd
        rw [messages_append, k2, k1]

/-! ## C44 -/

/-- C44: after any sequence of calls - levels changed, logs opened, closed and reopened, files that cannot be
opened - the messages on each stream are exactly those whose level did not exceed the level set for that
stream, in order; nothing the other stream is asked to do matters.  No sequence is undefined; the only
other outcome is the exit of an eager `ath_log_open` that cannot open its files. -/
theorem levels_filter (sys : Sys) (ops : List Op) :
    run sys init ops = .fatal ∨ ∃ s ev, run sys init ops = .ok (s, ev) ∧
      ∀ sd, messages sd ev = expected sd 0 ops := by
  rcases run_spec sys ops init inv_init with h | ⟨s, ev, h1, -, h2⟩
  · exact Or.inl h
  · exact Or.inr ⟨s, ev, h1, h2⟩

/-- With lazy opening (or if every file can be opened) the run never exits. -/
theorem never_exits (sys : Sys) (ops : List Op)
    (h : (∀ n, sys.canOpen n = true) ∨ ∀ op ∈ ops, ∀ b ap, op ≠ .open' b false ap) :
    run sys init ops ≠ .fatal := by
  suffices H : ∀ ops s, Inv s → ((∀ n, sys.canOpen n = true) ∨ ∀ op ∈ ops, ∀ b ap, op ≠ .open' b false ap) →
      run sys s ops ≠ .fatal from H ops init inv_init h
  clear h ops
  intro ops
  induction ops with
  | nil => intro s _ _ h; simp [run] at h
  | cons op ops ih =>
    intro s hi hh
    have hns : step sys s op ≠ .fatal := by
      cases op with
      | setLevel o e => simp [step]
      | close => simp [step]
      | flush sd => simp [step]
      | fp sd =>
        obtain ⟨s', ev, h1, -⟩ := openIf_spec sys s sd hi
        simp [step, h1]
      | print sd k t =>
        obtain ⟨s', ev, h1, -⟩ := openIf_spec sys s sd hi
        simp only [step, h1]; split_ifs <;> simp
      | open' base lz ap =>
        cases lz with
        | true => simp [step]
        | false =>
          rcases hh with hc | hc
          · simp [step, openStrm, hc, St.set]
          · exact absurd rfl (hc _ (List.mem_cons_self ..) base ap)
    rcases step_spec sys s op hi with h | ⟨s1, e1, h1, i1, -⟩
    · exact absurd h hns
    · have := ih s1 i1 (hh.imp_right fun g op hop => g op (List.mem_cons_of_mem _ hop))
      simp only [run, h1, Res.bind_ok]
      intro hf
      rcases run_spec sys ops s1 i1 with h | ⟨s2, e2, h2, -⟩
      · exact this h
      · rw [h2] at hf; simp at hf

/-- The stream asks for nothing: no message at or below the level and no request for the file pointer. -/
def quiet (sd : Sd) : ℤ → List Op → Prop
  | _, [] => True
  | _, .setLevel o e :: ops => quiet sd (if sd = .out then o else e) ops
  | l, .print sd' k _ :: ops => ¬ (sd' = sd ∧ k ≤ l) ∧ quiet sd l ops
  | l, .fp sd' :: ops => sd' ≠ sd ∧ quiet sd l ops
  | l, .open' _ lz _ :: ops => lz = true ∧ quiet sd l ops
  | l, .close :: ops | l, .flush _ :: ops => quiet sd l ops

/-- Events concerning one stream's log file. -/
def touches (sd : Sd) : Ev → Prop
  | .opened f _ | .failed f | .sep f => f.sd = sd
  | .msg (.std sd') _ => sd' = sd
  | .msg (.file f) _ => f.sd = sd

/-- C44, lazy opening: a stream opened lazily that is never asked to write creates no file: none of its events
happens at all. -/
theorem lazy_no_file (sys : Sys) (sd : Sd) (ops : List Op) (hq : quiet sd 0 ops) (s : St) (ev : List Ev)
    (hr : run sys init ops = .ok (s, ev)) : ∀ e ∈ ev, ¬ touches sd e := by
  suffices H : ∀ ops s0 s ev, Inv s0 → quiet sd (s0.strm sd).level ops → run sys s0 ops = .ok (s, ev) →
      ∀ e ∈ ev, ¬ touches sd e from H ops init s ev inv_init hq hr
  clear hr hq ev s ops
  have ht : ∀ (s0 : St) sd', sd' ≠ sd → Inv s0 → ∀ s1 e1, openIf sys s0 sd' = .ok (s1, e1) →
      ∀ e ∈ e1, ¬ touches sd e := by
    intro s0 sd' hne hi s1 e1 h
    unfold openIf at h
    by_cases hf : (s0.strm sd').flag = true
    · rw [if_pos hf] at h
      obtain ⟨f, hfn⟩ := Option.ne_none_iff_exists'.mp ((hi sd').1 hf)
      have hfs : f.sd ≠ sd := by rw [(hi sd').2.1 f hfn]; exact hne
      simp only [openStrm, hfn] at h
      split_ifs at h <;> simp at h <;> obtain ⟨-, rfl⟩ := h <;> simp [touches, hfs]
    · rw [if_neg hf] at h
      simp at h; obtain ⟨-, rfl⟩ := h; simp
  intro ops
  induction ops with
  | nil => intro s0 s ev _ _ h; simp [run] at h; obtain ⟨-, rfl⟩ := h; simp
  | cons op ops ih =>
    intro s0 s ev hi hq hr
    rcases step_spec sys s0 op hi with h | ⟨s1, e1, h1, i1, -⟩
    · simp [run, h] at hr
    · rcases run_spec sys ops s1 i1 with h | ⟨s2, e2, h2, -, -⟩
      · simp [run, h1, h] at hr
      · simp only [run, h1, h2, Res.bind_ok, Res.pure_eq_ok, Res.ok.injEq, Prod.mk.injEq] at hr
        obtain ⟨rfl, rfl⟩ := hr
        have key : (∀ e ∈ e1, ¬ touches sd e) ∧ quiet sd (s1.strm sd).level ops := by
          cases op with
          | setLevel o e =>
            simp only [step, Res.pure_eq_ok, Res.ok.injEq, Prod.mk.injEq] at h1
            obtain ⟨rfl, rfl⟩ := h1
            refine ⟨by simp, ?_⟩
            cases sd <;> simpa [quiet, St.set] using hq
          | close =>
            simp only [step, Res.pure_eq_ok, Res.ok.injEq, Prod.mk.injEq] at h1
            obtain ⟨rfl, rfl⟩ := h1
            refine ⟨by simp, ?_⟩
            cases sd <;> simpa [quiet, St.set] using hq
          | flush sd' =>
            simp only [step, Res.pure_eq_ok, Res.ok.injEq, Prod.mk.injEq] at h1
            obtain ⟨rfl, rfl⟩ := h1
            exact ⟨by simp, hq⟩
          | fp sd' =>
            obtain ⟨s', ev', g1, -, -, g4, -⟩ := openIf_spec sys s0 sd' hi
            have h1' : openIf sys s0 sd' = .ok (s1, e1) := h1
            rw [g1] at h1'; cases h1'
            exact ⟨ht s0 sd' hq.1 hi _ _ g1, by rw [g4]; exact hq.2⟩
          | print sd' k t =>
            by_cases hk : k ≤ (s0.strm sd').level
            · obtain ⟨s', ev', g1, g2, -, g4, -⟩ := openIf_spec sys s0 sd' hi
              simp only [step, if_pos hk, g1, Res.bind_ok, Res.pure_eq_ok, Res.ok.injEq,
                Prod.mk.injEq] at h1
              obtain ⟨rfl, rfl⟩ := h1
              have hne : sd' ≠ sd := by rintro rfl; exact hq.1 ⟨rfl, hk⟩
              refine ⟨?_, by rw [g4]; exact hq.2⟩
              intro e he
              rcases List.mem_append.mp he with he | he
              · exact ht s0 sd' hne hi _ _ g1 e he
              · rw [List.mem_singleton] at he; subst he
                unfold target; split
                · exact hne
                · rename_i f hf
                  show f.sd ≠ sd
                  rw [(g2 sd').2.2 f hf]; exact hne
            · simp only [step, if_neg hk, Res.pure_eq_ok, Res.ok.injEq, Prod.mk.injEq] at h1
              obtain ⟨rfl, rfl⟩ := h1
              exact ⟨by simp, hq.2⟩
          | open' base lz ap =>
            obtain ⟨hl, hq⟩ := hq
            subst hl
            simp only [step, if_true, Res.pure_eq_ok, Res.ok.injEq, Prod.mk.injEq] at h1
            obtain ⟨rfl, rfl⟩ := h1
            refine ⟨by simp, ?_⟩
            cases sd <;> simpa [St.set] using hq
        intro e he
        rcases List.mem_append.mp he with he | he
        · exact key.1 e he
        · exact ih s1 s2 e2 i1 key.2 h2 e he

/-- C44, destination: if the files can be opened, then from `ath_log_open` on (no close, no other open) every
message goes to the log file of its stream, none to the terminal. -/
theorem goes_to_file (sys : Sys) (hsys : ∀ n, sys.canOpen n = true) (pre : List Op) (base : String)
    (lz ap : Bool) (ops : List Op) (hops : ∀ op ∈ ops, op ≠ .close ∧ ∀ b l a, op ≠ .open' b l a)
    (s0 s : St) (e0 ev : List Ev) (h0 : run sys init pre = .ok (s0, e0))
    (hr : run sys s0 (.open' base lz ap :: ops) = .ok (s, ev)) :
    ∀ t x, .msg t x ∈ ev → t = .file ⟨base, .out⟩ ∨ t = .file ⟨base, .err⟩ := by
  have i0 : Inv s0 := by
    rcases run_spec sys pre init inv_init with h | ⟨s', ev', h1, h2, -⟩
    · rw [h] at h0; cases h0
    · rw [h1] at h0; cases h0; exact h2
  -- after the call each stream either will open its file or has it open
  let J : St → Prop := fun s => ∀ sd, (s.strm sd).fname = some ⟨base, sd⟩ ∧
    ((s.strm sd).flag = true ∨ (s.strm sd).fp = some ⟨base, sd⟩)
  have hopen : ∀ (s : St) sd, Inv s → J s → ∀ s' e', openIf sys s sd = .ok (s', e') →
      J s' ∧ (s'.strm sd).fp = some ⟨base, sd⟩ ∧ ∀ t x, .msg t x ∉ e' := by
    intro s sd hi hj s' e' h
    unfold openIf at h
    by_cases hf : (s.strm sd).flag = true
    · rw [if_pos hf] at h
      simp only [openStrm, (hj sd).1, hsys, if_true, Res.bind_ok, Res.pure_eq_ok, Res.ok.injEq,
        Prod.mk.injEq] at h
      obtain ⟨rfl, rfl⟩ := h
      refine ⟨?_, ?_, ?_⟩
      · intro sd'
        by_cases h : sd' = sd
        · subst h; simp [St.set, (hj sd').1]
        · simp [St.set, h, hj sd']
      · simp [St.set]
      · intro t x; simp
    · rw [if_neg hf] at h
      simp at h; obtain ⟨rfl, rfl⟩ := h
      exact ⟨hj, (hj sd).2.resolve_left hf, by simp⟩
  have main : ∀ ops, (∀ op ∈ ops, op ≠ .close ∧ ∀ b l a, op ≠ .open' b l a) → ∀ s s' ev, Inv s → J s →
      run sys s ops = .ok (s', ev) →
      ∀ t x, .msg t x ∈ ev → t = .file ⟨base, .out⟩ ∨ t = .file ⟨base, .err⟩ := by
    intro ops
    induction ops with
    | nil => intro _ s s' ev _ _ h; simp [run] at h; obtain ⟨-, rfl⟩ := h; simp
    | cons op ops ih =>
      intro hops s s' ev hi hj hr
      rcases step_spec sys s op hi with h | ⟨s1, e1, h1, i1, -⟩
      · simp [run, h] at hr
      · rcases run_spec sys ops s1 i1 with h | ⟨s2, e2, h2, -, -⟩
        · simp [run, h1, h] at hr
        · simp only [run, h1, h2, Res.bind_ok, Res.pure_eq_ok, Res.ok.injEq, Prod.mk.injEq] at hr
          obtain ⟨rfl, rfl⟩ := hr
          have key : J s1 ∧ ∀ t x, .msg t x ∈ e1 → t = .file ⟨base, .out⟩ ∨ t = .file ⟨base, .err⟩ := by
            cases op with
            | setLevel o e =>
              simp only [step, Res.pure_eq_ok, Res.ok.injEq, Prod.mk.injEq] at h1
              obtain ⟨rfl, rfl⟩ := h1
              refine ⟨?_, by simp⟩
              intro sd; have := hj sd; cases sd <;> simpa [St.set] using this
            | close => exact absurd rfl (hops _ (List.mem_cons_self ..)).1
            | open' b l a => exact absurd rfl ((hops _ (List.mem_cons_self ..)).2 b l a)
            | flush sd' =>
              simp only [step, Res.pure_eq_ok, Res.ok.injEq, Prod.mk.injEq] at h1
              obtain ⟨rfl, rfl⟩ := h1
              exact ⟨hj, by simp⟩
            | fp sd' =>
              have h1' : openIf sys s sd' = .ok (s1, e1) := h1
              obtain ⟨g1, -, g3⟩ := hopen s sd' hi hj _ _ h1'
              exact ⟨g1, fun t x h => absurd h (g3 t x)⟩
            | print sd' k t =>
              by_cases hk : k ≤ (s.strm sd').level
              · obtain ⟨s', ev', g1, -⟩ := openIf_spec sys s sd' hi
                simp only [step, if_pos hk, g1, Res.bind_ok, Res.pure_eq_ok, Res.ok.injEq,
                  Prod.mk.injEq] at h1
                obtain ⟨rfl, rfl⟩ := h1
                obtain ⟨k1, k2, k3⟩ := hopen s sd' hi hj _ _ g1
                refine ⟨k1, ?_⟩
                intro t x hm
                rcases List.mem_append.mp hm with hm | hm
                · exact absurd hm (k3 t x)
                · simp only [List.mem_singleton, Ev.msg.injEq, target, k2] at hm
                  rw [hm.1]; cases sd' <;> simp
              · simp only [step, if_neg hk, Res.pure_eq_ok, Res.ok.injEq, Prod.mk.injEq] at h1
                obtain ⟨rfl, rfl⟩ := h1
                exact ⟨hj, by simp⟩
          intro t x hm
          rcases List.mem_append.mp hm with hm | hm
          · exact key.2 t x hm
          · exact ih (fun op hop => hops op (List.mem_cons_of_mem _ hop)) s1 s2 e2 i1 key.1 h2 t x hm
  -- the opening call itself
  rcases step_spec sys s0 (.open' base lz ap) i0 with h | ⟨s1, e1, h1, i1, -⟩
  · simp [run, h] at hr
  · rcases run_spec sys ops s1 i1 with h | ⟨s2, e2, h2, -, -⟩
    · simp [run, h1, h] at hr
    · simp only [run, h1, h2, Res.bind_ok, Res.pure_eq_ok, Res.ok.injEq, Prod.mk.injEq] at hr
      obtain ⟨rfl, rfl⟩ := hr
      have key : J s1 ∧ ∀ t x, .msg t x ∉ e1 := by
        cases lz with
        | true =>
          simp only [step, if_true, Res.pure_eq_ok, Res.ok.injEq, Prod.mk.injEq] at h1
          obtain ⟨rfl, rfl⟩ := h1
          refine ⟨?_, by simp⟩
          intro sd; cases sd <;> simp [St.set]
        | false =>
          simp [step, openStrm, hsys, St.set] at h1
          obtain ⟨rfl, rfl⟩ := h1
          refine ⟨?_, ?_⟩
          · intro sd; cases sd <;> simp
          · intro t x hm; simp at hm
      intro t x hm
      rcases List.mem_append.mp hm with hm | hm
      · exact absurd hm (key.2 t x)
      · exact main ops hops s1 s2 e2 i1 key.1 h2 t x hm

/-! A concrete history: a child process with levels 0 and -1, logs opened lazily. -/
example : ∃ s, run ⟨fun _ => true, fun _ => false⟩ init
    [.setLevel 0 (-1), .print .out 0 "a", .open' "id1" true false, .print .err 0 "b", .print .out 1 "c",
      .print .out (-1) "d", .flush .err] =
    .ok (s, [.msg (.std .out) "a", .opened ⟨"id1", .out⟩ false, .msg (.file ⟨"id1", .out⟩) "d"]) :=
  ⟨_, rfl⟩
example : quiet .err 0
    [.setLevel 0 (-1), .print .out 0 "a", .open' "id1" true false, .print .err 0 "b", .print .out 1 "c",
      .print .out (-1) "d", .flush .err] := by simp [quiet]

end Athena.Log
