import Verif.Par.ParseLemmas

/-!
# Properties C04, C06, C53 (src/par.c): writing the database to a file or to other ranks and reading it back
-/

namespace Athena.Par

/-! ## Specification -/

/-- What the user sees of a database: blocks in order, each with its parameters in order
(name, value, comment). -/
def contents (db : DB) : List (Str × List Par) := db.map (fun b => (b.name, b.pars))

/-- Lexically clean parameter: what `name = value # comment` on one line can express. -/
structure CleanPar (p : Par) : Prop where
  name_ne : p.name ≠ []
  name_trim : Trimmed p.name
  name_chars : '=' ∉ p.name ∧ '#' ∉ p.name ∧ '\n' ∉ p.name ∧ NUL ∉ p.name
  name_first : ∀ t, p.name ≠ '<' :: t
  value_trim : Trimmed p.value
  value_chars : '#' ∉ p.value ∧ '\n' ∉ p.value ∧ NUL ∉ p.value
  comment_ok : ∀ c, p.comment = some c → c ≠ [] ∧ Trimmed c ∧ '\n' ∉ c ∧ NUL ∉ c
  /-- the restriction forced by the code: no comment on an empty value -/
  empty_plain : p.value = [] → p.comment = none

structure CleanBlock (b : Block) : Prop where
  name_trim : Trimmed b.name
  name_chars : '>' ∉ b.name ∧ '\n' ∉ b.name ∧ NUL ∉ b.name
  pars : ∀ p ∈ b.pars, CleanPar p

/-- Clean database with unique names (every database of a run has unique names: `names_unique_run`). -/
structure Clean (db : DB) : Prop where
  unique : Unique db
  blocks : ∀ b ∈ db, CleanBlock b

/-- Every line of the dump fits the line buffer. -/
def LinesFit (db : DB) : Prop :=
  ∀ b ∈ db, b.name.length + 3 ≤ MAXLEN - 1 ∧ ∀ p ∈ b.pars, (dumpPar b p).length ≤ MAXLEN - 1

/-! ## Lemmas -/

theorem fgetsLines_line (l : Str) (s : Str) : ∀ (k : Nat) (cur : Str), '\n' ∉ l → l.length < k →
    fgetsLines k cur (l ++ '\n' :: s) = (cur ++ l ++ ['\n']) :: fgetsLines (MAXLEN - 1) [] s := by
  induction l with
  | nil => intro k cur _ _; simp [fgetsLines]
  | cons c l ih =>
    intro k cur h hk
    simp only [List.mem_cons, not_or, List.length_cons] at h hk
    rw [List.cons_append]
    simp only [fgetsLines]
    rw [if_neg (by rintro (e | e); exact h.1 e.symm; omega), ih (k-1) _ h.2 (by omega)]
    simp

theorem openLines_blank (rest : List Str) (db : DB) (bp : Option Nat) :
    openLines (['\n'] :: rest) db bp = openLines rest db bp := by
  simp only [openLines]
  have : skipWhite (['\n'] ++ [NUL]) 0 = 1 := by decide
  rw [this]
  rfl

theorem openLines_par (line : Str) (rest : List Str) (db : DB) (i : Nat) (c : Char) (u : Str)
    (hl : line ++ [NUL] = c :: u) (hc : isSpace c = false) (h1 : c ≠ NUL) (h2 : c ≠ '#') (h3 : c ≠ '<') :
    openLines (line :: rest) db (some i) = (parseLine (line ++ [NUL]) 0 >>= fun l =>
      openLines rest (db.modify i (addPar · l.1 l.2.1 l.2.2)) (some i)) := by
  simp only [openLines]
  have hs : skipWhite (line ++ [NUL]) 0 = 0 := by
    rw [hl]; unfold skipWhite; rw [List.drop_zero, List.takeWhile_cons_of_neg (by simp [hc])]; rfl
  rw [hs, hl]
  simp only [List.getElem?_cons_zero]
  rw [if_neg h1, if_neg h2, if_neg, if_neg h3]
  rw [List.drop_zero]
  intro e
  rw [List.isPrefixOf_iff_prefix] at e
  obtain ⟨t, e⟩ := e
  have : "<par_end>".toList = '<' :: "par_end>".toList := by decide
  rw [this, List.cons_append, List.cons.injEq] at e
  exact h3 e.1.symm

theorem modify_append_last (done : DB) (x : Block) (f : Block → Block) :
    (done ++ [x]).modify done.length f = done ++ [f x] := by
  induction done with
  | nil => rfl
  | cons b done ih => simp [ih]

theorem addParList_fresh (ps : List Par) (n v : Str) (c : Option Str) (h : n ∉ ps.map (·.name)) :
    addParList ps n v c = ps ++ [⟨n, v, c⟩] := by
  induction ps with
  | nil => rfl
  | cons p ps ih =>
    simp only [List.map_cons, List.mem_cons, not_or] at h
    simp only [addParList]
    rw [if_neg (fun e => h.1 e.symm), ih h.2]; rfl

theorem addBlock_fresh (db : DB) (n : Str) (h : n ∉ db.map (·.name)) :
    addBlock db n = (db ++ [⟨n, [], 0, 0⟩], db.length) := by
  unfold addBlock
  have : blockIndex db n = none := by
    rw [blockIndex_none]; intro b hb e; exact h (List.mem_map.2 ⟨b, hb, e⟩)
  rw [this]

theorem spaces_replicate (n : Nat) : Spaces (List.replicate n ' ') := by
  intro c hc; rw [List.eq_of_mem_replicate hc]; decide

theorem spaces_one (c : Char) (h : isSpace c = true) : Spaces [c] := by
  intro d hd; rw [List.mem_singleton] at hd; rw [hd]; exact h

/-- Parsing the line written for a clean parameter, with any padding and an optional newline. -/
theorem parse_written (p : Par) (hp : CleanPar p) (w1 w3 w5 : Str) (hw1 : Spaces w1) (hw3 : Spaces w3)
    (hw5 : Spaces w5) :
    parseLine (p.name ++ (w1 ++ '=' :: ([' '] ++ (p.value ++ (w3 ++
      (match p.comment with | none => w5 | some c => " # ".toList ++ (c ++ w5)))))) ++ [NUL]) 0 =
      .ok (p.name, p.value, p.comment) := by
  have hsp := spaces_one ' ' (by decide)
  cases hc : p.comment with
  | none =>
    dsimp only
    have := parse_plain [] p.name w1 [' '] p.value (w3 ++ w5) hp.name_ne hp.name_trim hp.name_chars.1
      hp.name_chars.2.1 hp.name_chars.2.2.2 hw1 hsp hp.value_trim hp.value_chars.1 hp.value_chars.2.2 (hw3.append hw5)
    simpa using this
  | some c =>
    dsimp only
    have hve : p.value ≠ [] := by
      intro e; have := hp.empty_plain e; rw [hc] at this; simp at this
    obtain ⟨hc1, hc2, _, hc4⟩ := hp.comment_ok c hc
    have := parse_comment [] p.name w1 [' '] p.value (w3 ++ [' ']) [' '] c w5 hp.name_ne hp.name_trim hp.name_chars.1
      hp.name_chars.2.1 hp.name_chars.2.2.2 hw1 hsp hve hp.value_trim hp.value_chars.1 hp.value_chars.2.2
      (hw3.append hsp) hsp hc2 hc4 hw5
    rw [if_neg hc1] at this
    have e : " # ".toList = [' ', '#', ' '] := by decide
    rw [e]
    simpa using this

theorem name_cons {p : Par} (hp : CleanPar p) : ∃ c u, p.name = c :: u ∧ isSpace c = false ∧ c ≠ NUL ∧
    c ≠ '#' ∧ c ≠ '<' := by
  obtain ⟨c, u, e⟩ : ∃ c u, p.name = c :: u := by
    cases h : p.name with
    | nil => exact absurd h hp.name_ne
    | cons c u => exact ⟨c, u, rfl⟩
  refine ⟨c, u, e, hp.name_trim.1 c u e, ?_, ?_, ?_⟩
  · rintro rfl; exact hp.name_chars.2.2.2 (by rw [e]; simp)
  · rintro rfl; exact hp.name_chars.2.1 (by rw [e]; simp)
  · rintro rfl; exact hp.name_first u e

/-- The lines of one block. -/
theorem open_dumpPars (bp : Block) (T : Str) (ps : List Par) : ∀ (done : DB) (x : Block),
    (∀ p ∈ ps, CleanPar p) → (∀ p ∈ ps, (dumpPar bp p).length ≤ MAXLEN - 1) →
    ((x.pars ++ ps).map (·.name)).Nodup →
    ∃ x', x'.name = x.name ∧ x'.pars = x.pars ++ ps ∧
      openLines (fgetsLines (MAXLEN - 1) [] (ps.flatMap (dumpPar bp) ++ T)) (done ++ [x]) (some done.length) =
      openLines (fgetsLines (MAXLEN - 1) [] T) (done ++ [x']) (some done.length) := by
  induction ps with
  | nil => intro done x _ _ _; exact ⟨x, rfl, by simp, by simp⟩
  | cons p ps ih =>
    intro done x hcl hfit hnd
    have hp := hcl p (by simp)
    have hpf := hfit p (by simp)
    obtain ⟨c, u, hcu, hsp, hn1, hn2, hn3⟩ := name_cons hp
    -- the line
    obtain ⟨l, hl⟩ : ∃ l, l = p.name ++ (List.replicate (bp.maxName - p.name.length) ' ' ++ [' '] ++
        '=' :: ([' '] ++ (p.value ++ (List.replicate (bp.maxValue - p.value.length) ' ' ++
        (match p.comment with | none => [] | some c => " # ".toList ++ (c ++ [])))))) := ⟨_, rfl⟩
    have hdump : dumpPar bp p = l ++ ['\n'] := by
      have e3 : " = ".toList = [' ', '=', ' '] := by decide
      rw [hl]; unfold dumpPar padRight; rw [e3]
      cases p.comment <;> simp
    have hlen : l.length + 1 ≤ MAXLEN - 1 := by rw [hdump] at hpf; simpa using hpf
    have hnl : '\n' ∉ l := by
      have hrep : ∀ k, '\n' ∉ List.replicate k ' ' := by
        intro k hk; exact absurd (List.eq_of_mem_replicate hk) (by decide)
      rw [hl]
      simp only [List.mem_append, List.mem_cons, not_or, List.not_mem_nil]
      refine ⟨hp.name_chars.2.2.1, ⟨hrep _, by decide, not_false⟩, by decide, ⟨by decide, not_false⟩,
        hp.value_chars.2.1, hrep _, ?_⟩
      cases hc : p.comment with
      | none => simp
      | some cm =>
        have := (hp.comment_ok cm hc).2.2.1
        simp only [List.append_nil, List.mem_append, not_or]
        exact ⟨by decide, this⟩
    have hparse : parseLine (l ++ ['\n'] ++ [NUL]) 0 = .ok (p.name, p.value, p.comment) := by
      have := parse_written p hp (List.replicate (bp.maxName - p.name.length) ' ' ++ [' '])
        (List.replicate (bp.maxValue - p.value.length) ' ') ['\n']
        ((spaces_replicate _).append (spaces_one _ (by decide))) (spaces_replicate _) (spaces_one _ (by decide))
      rw [← this, hl]
      congr 1
      cases p.comment <;> simp
    have hfresh : p.name ∉ x.pars.map (·.name) := by
      rw [List.map_append, List.nodup_append] at hnd
      intro hm
      exact hnd.2.2 p.name hm p.name (by simp) rfl
    obtain ⟨x', e1, e2, e3⟩ := ih done (addPar x p.name p.value p.comment)
      (fun q hq => hcl q (by simp [hq])) (fun q hq => hfit q (by simp [hq])) (by
        show (((addParList x.pars p.name p.value p.comment) ++ ps).map (·.name)).Nodup
        rw [addParList_fresh _ _ _ _ hfresh]
        simpa using hnd)
    refine ⟨x', e1, ?_, ?_⟩
    · rw [e2]
      show addParList x.pars p.name p.value p.comment ++ ps = _
      rw [addParList_fresh _ _ _ _ hfresh]; simp
    · rw [← e3, List.flatMap_cons, hdump]
      have : l ++ ['\n'] ++ List.flatMap (dumpPar bp) ps ++ T = l ++ '\n' :: (List.flatMap (dumpPar bp) ps ++ T) := by simp
      rw [this, fgetsLines_line l _ _ _ hnl (by omega), List.nil_append]
      have hlc : l ++ ['\n'] ++ [NUL] = c :: (u ++ (l.drop p.name.length ++ ['\n'] ++ [NUL])) := by
        have : l = p.name ++ l.drop p.name.length := by
          conv_lhs => rw [hl]
          rw [hl, List.drop_left]
        conv_lhs => rw [this]
        rw [hcu]; simp
      rw [openLines_par (l ++ ['\n']) _ _ _ c _ hlc hsp hn1 hn2 hn3, hparse]
      simp only [Res.bind_ok]
      rw [modify_append_last]

theorem par_end_not_prefix (n t : Str) (h : '>' ∉ n) (hne : n ≠ "par_end".toList) :
    "<par_end>".toList.isPrefixOf ('<' :: (n ++ '>' :: t)) = false := by
  rw [Bool.eq_false_iff]
  intro e
  rw [List.isPrefixOf_iff_prefix] at e
  obtain ⟨u, e⟩ := e
  have e1 : "<par_end>".toList = '<' :: ("par_end".toList ++ ['>']) := by decide
  rw [e1, List.cons_append, List.cons.injEq, List.append_assoc] at e
  have h2 : '>' ∉ "par_end".toList := by decide
  have key : ∀ (a b : Str) (s t : Str), '>' ∉ a → '>' ∉ b → a ++ '>' :: s = b ++ '>' :: t → a = b := by
    intro a
    induction a with
    | nil =>
      intro b s t _ hb e
      cases b with
      | nil => rfl
      | cons y b => simp only [List.nil_append, List.cons_append, List.cons.injEq] at e; simp [← e.1] at hb
    | cons x a ih =>
      intro b s t ha hb e
      cases b with
      | nil => simp only [List.nil_append, List.cons_append, List.cons.injEq] at e; simp [e.1] at ha
      | cons y b =>
        simp only [List.cons_append, List.cons.injEq] at e
        simp only [List.mem_cons, not_or] at ha hb
        rw [e.1, ih b s t ha.2 hb.2 e.2]
  exact hne (key _ _ _ _ h2 h e.2).symm

theorem openLines_block (n : Str) (rest : List Str) (db : DB) (bp : Option Nat) (ht : Trimmed n)
    (hg : '>' ∉ n) (h3 : NUL ∉ n) (hne : n ≠ "par_end".toList) :
    openLines (('<' :: n ++ ['>', '\n']) :: rest) db bp =
      openLines rest (addBlock db n).1 (some (addBlock db n).2) := by
  simp only [openLines]
  have e : '<' :: n ++ ['>', '\n'] ++ [NUL] = '<' :: (n ++ '>' :: ['\n', NUL]) := by simp
  have hs : skipWhite ('<' :: (n ++ '>' :: ['\n', NUL])) 0 = 0 := by
    unfold skipWhite; rw [List.drop_zero, List.takeWhile_cons_of_neg (by decide)]; rfl
  rw [e, hs]
  simp only [List.getElem?_cons_zero, List.drop_zero]
  rw [if_neg (by decide), if_neg (by decide), par_end_not_prefix _ _ hg hne, if_neg (by simp), if_pos trivial]
  have := block_name [] [] n [] ['\n', NUL] Spaces.nil Spaces.nil ht (.inr rfl) hg h3
  simp only [List.nil_append, List.length_nil] at this
  rw [this]
  rfl

/-- The lines of all blocks. -/
theorem open_dumpBlocks (T : Str) (db : DB) : ∀ (done : DB) (bp : Option Nat),
    (∀ b ∈ db, CleanBlock b) → (∀ b ∈ db, b.name ≠ "par_end".toList) → LinesFit db →
    ((done ++ db).map (·.name)).Nodup → (∀ b ∈ db, (b.pars.map (·.name)).Nodup) →
    ∃ db' bp', contents db' = contents db ∧
      openLines (fgetsLines (MAXLEN - 1) [] (db.flatMap dumpBlock ++ T)) done bp =
      openLines (fgetsLines (MAXLEN - 1) [] T) (done ++ db') bp' := by
  induction db with
  | nil => intro done bp _ _ _ _ _; exact ⟨[], bp, rfl, by simp⟩
  | cons b db ih =>
    intro done bp hcl hpe hfit hnd hps
    have hb := hcl b (by simp)
    have hbf := hfit b (by simp)
    have hfresh : b.name ∉ done.map (·.name) := by
      rw [List.map_append, List.nodup_append] at hnd
      intro hm; exact hnd.2.2 b.name hm b.name (by simp) rfl
    obtain ⟨x', e1, e2, e3⟩ := open_dumpPars b ('\n' :: (db.flatMap dumpBlock ++ T)) b.pars done
      ⟨b.name, [], 0, 0⟩ hb.pars hbf.2 (by simpa using hps b (by simp))
    obtain ⟨db', bp', e4, e5⟩ := ih (done ++ [x']) (some done.length) (fun q hq => hcl q (by simp [hq]))
      (fun q hq => hpe q (by simp [hq])) (fun q hq => hfit q (by simp [hq])) (by
        have : ((done ++ [x'] ++ db).map (·.name)) = ((done ++ b :: db).map (·.name)) := by simp [e1]
        rw [this]; exact hnd) (fun q hq => hps q (by simp [hq]))
    refine ⟨x' :: db', bp', ?_, ?_⟩
    · unfold contents at e4 ⊢
      simp only [List.map_cons, e4, e1, e2, List.nil_append]
    · have h1 : List.flatMap dumpBlock (b :: db) ++ T =
          ('<' :: b.name ++ ['>']) ++ '\n' :: (b.pars.flatMap (dumpPar b) ++ '\n' :: (db.flatMap dumpBlock ++ T)) := by
        simp [dumpBlock]
      have hln : '\n' ∉ '<' :: b.name ++ ['>'] := by
        simp only [List.cons_append, List.mem_cons, List.mem_append, not_or]
        exact ⟨by decide, hb.name_chars.2.1, by decide, by simp⟩
      rw [h1, fgetsLines_line _ _ _ _ hln (by have := hbf.1; simp; omega)]
      have h2 : [] ++ ('<' :: b.name ++ ['>']) ++ ['\n'] = '<' :: b.name ++ ['>', '\n'] := by simp
      rw [h2, openLines_block b.name _ _ _ hb.name_trim hb.name_chars.1 hb.name_chars.2.2 (hpe b (by simp)),
        addBlock_fresh done b.name hfresh]
      dsimp only
      rw [e3]
      have h3 := fgetsLines_line [] (db.flatMap dumpBlock ++ T) (MAXLEN - 1) [] (by simp) (by decide)
      rw [List.nil_append, List.nil_append, List.nil_append] at h3
      rw [h3, openLines_blank, e5]
      simp

/-! ## C04 -/

/-- **C04** (for databases in which no parameter with an empty value has a comment and no block is
called `par_end`): what `par_dump(2,fp)` writes is read back by `par_open` as the same blocks and
parameters in the same order with the same values and comments, whatever follows in the file (the
binary part of a restart file). -/
theorem dump_open_partial (db : DB) (h : Clean db) (hpe : ∀ b ∈ db, b.name ≠ "par_end".toList)
    (hfit : LinesFit db) (rest : Str) :
    ∃ db', parOpen (parDump 2 db ++ rest) [] = .ok db' ∧ contents db' = contents db := by
  obtain ⟨db', bp', e1, e2⟩ := open_dumpBlocks ("<par_end>\n".toList ++ rest) db [] none h.blocks hpe hfit
    (by simpa using h.unique.1) h.unique.2
  refine ⟨db', ?_, e1⟩
  have hd : parDump 2 db ++ rest = db.flatMap dumpBlock ++ ("<par_end>\n".toList ++ rest) := by
    simp [parDump]
  unfold parOpen
  rw [hd, e2]
  have h1 : "<par_end>\n".toList ++ rest = "<par_end>".toList ++ '\n' :: rest := by
    have : "<par_end>\n".toList = "<par_end>".toList ++ ['\n'] := by decide
    rw [this]; simp
  rw [h1, fgetsLines_line _ _ _ _ (by decide) (by decide)]
  simp only [openLines]
  have h2 : skipWhite ([] ++ "<par_end>".toList ++ ['\n'] ++ [NUL]) 0 = 0 := by decide
  rw [h2]
  have h3 : ([] ++ "<par_end>".toList ++ ['\n'] ++ [NUL])[0]? = some '<' := by decide
  rw [h3]
  dsimp only
  rw [if_neg (by decide), if_neg (by decide), if_pos (by decide)]
  simp

/-- The same for `par_dump(0,fp)` (the log of a run used as an input file). -/
theorem dump0_open_partial (db : DB) (h : Clean db) (hpe : ∀ b ∈ db, b.name ≠ "par_end".toList)
    (hfit : LinesFit db) :
    ∃ db', parOpen (parDump 0 db) [] = .ok db' ∧ contents db' = contents db := by
  obtain ⟨db', bp', e1, e2⟩ := open_dumpBlocks "# --------------------- PAR_DUMP -------------------------\n".toList
    db [] none h.blocks hpe hfit (by simpa using h.unique.1) h.unique.2
  refine ⟨db', ?_, e1⟩
  have hd : parDump 0 db = "# --------------------- PAR_DUMP -----------------------".toList ++ '\n' ::
      ([] ++ '\n' :: (db.flatMap dumpBlock ++ "# --------------------- PAR_DUMP -------------------------\n".toList)) := by
    have : "# --------------------- PAR_DUMP -----------------------\n\n".toList =
      "# --------------------- PAR_DUMP -----------------------".toList ++ ['\n', '\n'] := by decide
    simp only [parDump, if_neg (by decide : ¬ (0 = 2)), if_pos (by decide : 0 ≠ 2), this]
    simp
  unfold parOpen
  rw [hd, fgetsLines_line _ _ _ _ (by decide) (by decide), fgetsLines_line [] _ _ _ (by decide) (by decide)]
  have hcm : ∀ (l : Str) rest db bp, l.head? = some '#' → openLines (l :: rest) db bp = openLines rest db bp := by
    intro l rest db bp hl
    obtain ⟨t, rfl⟩ : ∃ t, l = '#' :: t := by
      cases l with
      | nil => simp at hl
      | cons c t => simp at hl; exact ⟨t, by rw [hl]⟩
    simp only [openLines]
    have hs : skipWhite ('#' :: t ++ [NUL]) 0 = 0 := by
      unfold skipWhite; rw [List.drop_zero, List.cons_append, List.takeWhile_cons_of_neg (by decide)]; rfl
    rw [hs]
    have : ('#' :: t ++ [NUL])[0]? = some '#' := rfl
    rw [this]
    dsimp only
    rw [if_neg (by decide), if_pos rfl]
  rw [hcm _ _ _ _ (by decide)]
  have hb : ([] ++ [] ++ ['\n'] : Str) = ['\n'] := rfl
  rw [hb, openLines_blank, e2]
  have hl : fgetsLines (MAXLEN - 1) [] "# --------------------- PAR_DUMP -------------------------\n".toList =
      ["# --------------------- PAR_DUMP -------------------------\n".toList] := by decide
  rw [hl, hcm _ _ _ _ (by decide)]
  simp [openLines]

/-- A clean database with padding, comments, an empty value and a value containing `=`. -/
def demoDB : DB :=
  [⟨"job".toList, [⟨"problem_id".toList, "Blast".toList, some "name # of run".toList⟩,
      ⟨"n".toList, [], none⟩], 10, 5⟩,
   ⟨"grid 1".toList, [⟨"x".toList, "a=b".toList, some "Default Value".toList⟩], 1, 9⟩]

example : parOpen (parDump 2 demoDB ++ "garbage\n= <".toList) [] = .ok
    [⟨"job".toList, [⟨"problem_id".toList, "Blast".toList, some "name # of run".toList⟩,
      ⟨"n".toList, [], none⟩], 10, 5⟩,
     ⟨"grid 1".toList, [⟨"x".toList, "a=b".toList, some "Default Value".toList⟩], 1, 3⟩] := by decide

/-- **C04 fails for an empty value with a comment** (obtained by reading the line `n=# c`): after
`par_dump` and `par_open` the value is `# c`. -/
theorem dump_open_false : ∃ file db db', parOpen file [] = .ok db ∧
    parGets db ['b'] ['n'] = .ok [] ∧
    parOpen (parDump 2 db) [] = .ok db' ∧ parGets db' ['b'] ['n'] = .ok "# c".toList := by
  refine ⟨"<b>\nn=# c\n".toList, [⟨['b'], [⟨['n'], [], some ['c']⟩], 1, 0⟩],
    [⟨['b'], [⟨['n'], "# c".toList, some ['c']⟩], 1, 3⟩], by decide, by decide, by decide, by decide⟩

/-- **C04 fails for a block called `par_end`** (obtained by reading `< par_end>`): everything from
this block on is lost. -/
theorem dump_open_par_end_false : ∃ file db, parOpen file [] = .ok db ∧
    parGets db "par_end".toList ['n'] = .ok ['1'] ∧ parOpen (parDump 2 db) [] = .ok [] := by
  refine ⟨"< par_end>\nn=1\n".toList, [⟨"par_end".toList, [⟨['n'], ['1'], none⟩], 1, 1⟩],
    by decide, by decide, by decide⟩

/-- Undefined behaviour in the reader: a line beginning with `=` makes `str_term` read before the
line buffer. -/
theorem open_ub_line : parOpen "<b>\n = 1\n".toList [] = .ub := by decide

/-! ## C06 -/

/-- What rank 0 sends fits its line buffer. -/
def MsgsFit (db : DB) : Prop := ∀ l ∈ distLines db, l.length + 1 ≤ MAXLEN

/-- The broadcasts of a list of lines that fit. -/
def msgsOf (ls : List Str) : List Bcast := ls.flatMap (fun l => [.count (l.length + 1), .chars (l ++ [NUL])])

theorem sendLines_ok (ls : List Str) (h : ∀ l ∈ ls, l.length + 1 ≤ MAXLEN) :
    sendLines ls = .ok (msgsOf ls) := by
  induction ls with
  | nil => rfl
  | cons l ls ih =>
    simp only [sendLines, sendLine]
    have := h l (by simp)
    rw [if_neg (by omega), ih (fun q hq => h q (by simp [hq]))]
    simp [msgsOf]

theorem recv_step (l : Str) (rest : List Bcast) (db : DB) (bp : Option Nat) (hl : l.length + 1 ≤ MAXLEN) :
    distRecvLoop (.count (l.length + 1) :: .chars (l ++ [NUL]) :: rest) db bp =
      (recvLine (l ++ [NUL]) db bp >>= fun r => distRecvLoop rest r.1 r.2) := by
  rw [distRecvLoop]
  rw [if_pos (by omega)]
  rw [if_neg (by simp; omega)]

theorem msgsOf_append (a b : List Str) : msgsOf (a ++ b) = msgsOf a ++ msgsOf b := by
  simp [msgsOf]

theorem recv_pars (T : List Bcast) (hT : T ≠ []) (ps : List Par) : ∀ (done : DB) (x : Block),
    (∀ p ∈ ps, CleanPar p) → (∀ p ∈ ps, (distPar p).length + 1 ≤ MAXLEN) →
    ((x.pars ++ ps).map (·.name)).Nodup →
    ∃ x', x'.name = x.name ∧ x'.pars = x.pars ++ ps ∧
      distRecvLoop (msgsOf (ps.map distPar) ++ T) (done ++ [x]) (some done.length) =
      distRecvLoop T (done ++ [x']) (some done.length) := by
  induction ps with
  | nil => intro done x _ _ _; exact ⟨x, rfl, by simp, by simp [msgsOf]⟩
  | cons p ps ih =>
    intro done x hcl hfit hnd
    have hp := hcl p (by simp)
    have hpf := hfit p (by simp)
    obtain ⟨c, u, hcu, hsp, hn1, hn2, hn3⟩ := name_cons hp
    have hparse : parseLine (distPar p ++ [NUL]) 0 = .ok (p.name, p.value, p.comment) := by
      have := parse_written p hp [' '] [] [] (spaces_one _ (by decide)) Spaces.nil Spaces.nil
      rw [← this]
      have e3 : " = ".toList = [' ', '=', ' '] := by decide
      unfold distPar
      rw [e3]
      congr 1
      cases p.comment <;> simp
    have hfresh : p.name ∉ x.pars.map (·.name) := by
      rw [List.map_append, List.nodup_append] at hnd
      intro hm
      exact hnd.2.2 p.name hm p.name (by simp) rfl
    obtain ⟨x', e1, e2, e3⟩ := ih done (addPar x p.name p.value p.comment)
      (fun q hq => hcl q (by simp [hq])) (fun q hq => hfit q (by simp [hq])) (by
        show (((addParList x.pars p.name p.value p.comment) ++ ps).map (·.name)).Nodup
        rw [addParList_fresh _ _ _ _ hfresh]
        simpa using hnd)
    refine ⟨x', e1, ?_, ?_⟩
    · rw [e2]
      show addParList x.pars p.name p.value p.comment ++ ps = _
      rw [addParList_fresh _ _ _ _ hfresh]; simp
    · rw [← e3]
      have hm : msgsOf ((p :: ps).map distPar) ++ T =
        .count ((distPar p).length + 1) :: .chars (distPar p ++ [NUL]) :: (msgsOf (ps.map distPar) ++ T) := by
        simp [msgsOf]
      rw [hm, recv_step _ _ _ _ hpf]
      obtain ⟨v, hv⟩ : ∃ v, distPar p ++ [NUL] = c :: v := by
        unfold distPar; rw [hcu]; exact ⟨_, rfl⟩
      have hh : ¬ (distPar p ++ [NUL]).head? = some '<' := by rw [hv]; simpa using hn3
      unfold recvLine
      rw [if_neg hh]
      dsimp only
      rw [hparse]
      simp only [Res.bind_ok, Res.pure_eq_ok]
      rw [modify_append_last]

theorem recv_blocks (T : List Bcast) (hT : T ≠ []) (db : DB) : ∀ (done : DB) (bp : Option Nat),
    (∀ b ∈ db, CleanBlock b) → MsgsFit db →
    ((done ++ db).map (·.name)).Nodup → (∀ b ∈ db, (b.pars.map (·.name)).Nodup) →
    ∃ db' bp', contents db' = contents db ∧
      distRecvLoop (msgsOf (distLines db) ++ T) done bp = distRecvLoop T (done ++ db') bp' := by
  induction db with
  | nil => intro done bp _ _ _ _; exact ⟨[], bp, rfl, by simp [distLines, msgsOf]⟩
  | cons b db ih =>
    intro done bp hcl hfit hnd hps
    have hb := hcl b (by simp)
    have hfresh : b.name ∉ done.map (·.name) := by
      rw [List.map_append, List.nodup_append] at hnd
      intro hm; exact hnd.2.2 b.name hm b.name (by simp) rfl
    have hdl : distLines (b :: db) = ('<' :: b.name ++ ['>']) :: (b.pars.map distPar ++ distLines db) := by
      simp [distLines]
    have hne : msgsOf (distLines db) ++ T ≠ [] := by simp [hT]
    obtain ⟨x', e1, e2, e3⟩ := recv_pars (msgsOf (distLines db) ++ T) hne b.pars done
      ⟨b.name, [], 0, 0⟩ hb.pars (fun p hp => hfit _ (by rw [hdl]; simp; right; left; exact ⟨p, hp, rfl⟩))
      (by simpa using hps b (by simp))
    obtain ⟨db', bp', e4, e5⟩ := ih (done ++ [x']) (some done.length) (fun q hq => hcl q (by simp [hq]))
      (fun l hl => hfit l (by rw [hdl]; simp [hl])) (by
        have : ((done ++ [x'] ++ db).map (·.name)) = ((done ++ b :: db).map (·.name)) := by simp [e1]
        rw [this]; exact hnd) (fun q hq => hps q (by simp [hq]))
    refine ⟨x' :: db', bp', ?_, ?_⟩
    · unfold contents at e4 ⊢
      simp only [List.map_cons, e4, e1, e2, List.nil_append]
    · have hm : msgsOf (distLines (b :: db)) ++ T =
        .count (('<' :: b.name ++ ['>']).length + 1) :: .chars ('<' :: b.name ++ ['>'] ++ [NUL]) ::
          (msgsOf (b.pars.map distPar) ++ (msgsOf (distLines db) ++ T)) := by
        rw [hdl]; simp [msgsOf]
      rw [hm, recv_step _ _ _ _ (hfit _ (by rw [hdl]; simp))]
      have h2 : '<' :: b.name ++ ['>'] ++ [NUL] = '<' :: (b.name ++ ['>', NUL]) := by simp
      rw [h2]
      unfold recvLine
      have hh : ('<' :: (b.name ++ ['>', NUL])).head? = some '<' := rfl
      rw [if_pos hh]
      have := block_name [] [] b.name [] [NUL] Spaces.nil Spaces.nil hb.name_trim (.inr rfl) hb.name_chars.1 hb.name_chars.2.2
      simp only [List.nil_append, List.length_nil] at this
      rw [this]
      simp only [Res.bind_ok, Res.pure_eq_ok]
      rw [addBlock_fresh done b.name hfresh]
      dsimp only
      rw [e3, e5]
      simp

/-- **C06** (for databases in which no parameter with an empty value has a comment): every rank that
receives the broadcasts of rank 0 ends up with the same file name and the same database. -/
theorem dist_partial (filename : Str) (db : DB) (h : Clean db) (hfit : MsgsFit db)
    (hf : filename.length + 1 ≤ MAXLEN) (hf0 : NUL ∉ filename) :
    ∃ msgs db', distSend filename db = .ok msgs ∧ distRecv msgs = .ok (filename, db') ∧
      contents db' = contents db := by
  obtain ⟨db', bp', e1, e2⟩ := recv_blocks [.count (-1)] (by simp) db [] none h.blocks hfit
    (by simpa using h.unique.1) h.unique.2
  refine ⟨[.count (filename.length + 1), .chars (filename ++ [NUL])] ++ msgsOf (distLines db) ++ [.count (-1)],
    db', ?_, ?_, e1⟩
  · unfold distSend
    rw [sendLines_ok _ hfit]; rfl
  · simp only [List.cons_append, List.nil_append, distRecv]
    rw [if_neg (by simp; omega), e2]
    have := cstr_app (a := []) (s := filename) (t := []) hf0
    simp only [List.nil_append, List.length_nil] at this
    rw [this]
    simp [distRecvLoop]

example : (do let m ← distSend "athinput".toList demoDB; distRecv m) = .ok ("athinput".toList,
    [⟨"job".toList, [⟨"problem_id".toList, "Blast".toList, some "name # of run".toList⟩,
      ⟨"n".toList, [], none⟩], 10, 5⟩,
     ⟨"grid 1".toList, [⟨"x".toList, "a=b".toList, some "Default Value".toList⟩], 1, 3⟩]) := by decide

/-- **C06 fails for an empty value with a comment**: the other ranks get the value `# c`. -/
theorem dist_false : ∃ db msgs db', parGets db ['b'] ['n'] = .ok [] ∧
    distSend ['f'] db = .ok msgs ∧ distRecv msgs = .ok (['f'], db') ∧
    parGets db' ['b'] ['n'] = .ok "# c".toList := by
  refine ⟨[⟨['b'], [⟨['n'], [], some ['c']⟩], 1, 0⟩], [.count 2, .chars ['f', NUL],
    .count 4, .chars ("<b>".toList ++ [NUL]), .count 9, .chars ("n =  # c".toList ++ [NUL]), .count (-1)],
    [⟨['b'], [⟨['n'], "# c".toList, some ['c']⟩], 1, 3⟩], by decide, by decide, by decide, by decide⟩

/-- A value accepted by `par_open` (lines are shorter than the buffer) can overflow the buffer of
`par_dist_mpi`, which adds blanks around `=` and `#`. -/
theorem dist_overflow : ∃ file db, parOpen file [] = .ok db ∧ distSend ['f'] db = .ub := by
  refine ⟨"<b>\n".toList ++ 'n' :: '=' :: List.replicate 252 'v' ++ ['\n'],
    [⟨['b'], [⟨['n'], List.replicate 252 'v', none⟩], 1, 252⟩], by decide +kernel, by decide +kernel⟩

end Athena.Par
