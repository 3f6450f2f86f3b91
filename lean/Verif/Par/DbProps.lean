import Verif.Par.DbLemmas

/-!
# Properties C01, C02, C03, C05 (src/par.c)
-/

namespace Athena.Par

/-! ## C01 -/

/-- A call `par_sets(block,name,value,comment)` (`par_seti`/`par_setd` are the same with a formatted
value). -/
structure Write where
  block : Str
  name : Str
  value : Str
  comment : Option Str

def runWrites (db : DB) (ws : List Write) : DB :=
  ws.foldl (fun db w => parSets db w.block w.name w.value w.comment) db

theorem lookup_runWrites_other (ws : List Write) : ∀ (db : DB) (b n : Str),
    (∀ w ∈ ws, ¬ (w.block = b ∧ w.name = n)) → lookup (runWrites db ws) b n = lookup db b n := by
  induction ws with
  | nil => intro db b n _; rfl
  | cons w ws ih =>
    intro db b n h
    have h1 := h w (by simp)
    have h2 : ∀ w ∈ ws, ¬ (w.block = b ∧ w.name = n) := fun w hw => h w (by simp [hw])
    show lookup (runWrites (parSets db w.block w.name w.value w.comment) ws) b n = _
    rw [ih _ b n h2, lookup_sets, if_neg]
    rintro ⟨rfl, rfl⟩; exact h1 ⟨rfl, rfl⟩

/-- **C01.** After any sequence of writes, `par_gets` returns the value of the last write to exactly
that block and name … -/
theorem gets_last_write (db : DB) (before after : List Write) (w : Write)
    (hlast : ∀ w' ∈ after, ¬ (w'.block = w.block ∧ w'.name = w.name)) :
    parGets (runWrites db (before ++ w :: after)) w.block w.name = .ok w.value := by
  have : runWrites db (before ++ w :: after) =
      runWrites (parSets (runWrites db before) w.block w.name w.value w.comment) after := by
    simp [runWrites, List.foldl_append]
  rw [this, parGets_eq, lookup_runWrites_other after _ _ _ hlast, lookup_sets, if_pos ⟨rfl, rfl⟩]

/-- … and a read of a pair that no write named is as before the writes (in particular a fatal error
in a database that started empty). -/
theorem gets_other_unchanged (db : DB) (ws : List Write) (b n : Str)
    (hother : ∀ w ∈ ws, ¬ (w.block = b ∧ w.name = n)) :
    parGets (runWrites db ws) b n = parGets db b n ∧
    parExist (runWrites db ws) b n = parExist db b n := by
  rw [parGets_eq, parGets_eq, parExist_eq, parExist_eq, lookup_runWrites_other ws db b n hother]
  exact ⟨rfl, rfl⟩

/-- A read of a pair never stored is a fatal error; a read that succeeds is of a pair that exists. -/
theorem gets_fatal_iff (ws : List Write) (b n : Str) :
    (parGets (runWrites [] ws) b n = .fatal ↔ ∀ w ∈ ws, ¬ (w.block = b ∧ w.name = n)) ∧
    (parExist (runWrites [] ws) b n = true ↔ ∃ w ∈ ws, w.block = b ∧ w.name = n) := by
  by_cases h : ∃ w ∈ ws, w.block = b ∧ w.name = n
  · -- last such write
    obtain ⟨pre, w, post, rfl, hw, hpost⟩ : ∃ pre w post, ws = pre ++ w :: post ∧
        (w.block = b ∧ w.name = n) ∧ ∀ w' ∈ post, ¬ (w'.block = b ∧ w'.name = n) := by
      clear * - h
      induction ws with
      | nil => simp at h
      | cons x ws ih =>
        by_cases hx : ∃ w ∈ ws, w.block = b ∧ w.name = n
        · obtain ⟨pre, w, post, e, h1, h2⟩ := ih hx
          exact ⟨x :: pre, w, post, by rw [e]; rfl, h1, h2⟩
        · obtain ⟨w, hw, h1⟩ := h
          rcases List.mem_cons.1 hw with rfl | hw
          · exact ⟨[], w, ws, rfl, h1, fun w' hw' hc => hx ⟨w', hw', hc⟩⟩
          · exact absurd ⟨w, hw, h1⟩ hx
    obtain ⟨rfl, rfl⟩ := hw
    have hg := gets_last_write [] pre post w hpost
    constructor
    · rw [hg]; constructor
      · intro hc; simp at hc
      · intro hc; exact absurd ⟨rfl, rfl⟩ (hc w (by simp))
    · rw [parGets_eq] at hg
      rw [parExist_eq]
      constructor
      · intro _; exact h
      · intro _
        cases hl : lookup (runWrites [] (pre ++ w :: post)) w.block w.name with
        | none => rw [hl] at hg; simp at hg
        | some p => rfl
  · have hn : ∀ w ∈ ws, ¬ (w.block = b ∧ w.name = n) := fun w hw hc => h ⟨w, hw, hc⟩
    have := gets_other_unchanged [] ws b n hn
    rw [this.1, this.2]
    refine ⟨⟨fun _ => hn, fun _ => rfl⟩, ⟨fun hc => by simp [parExist, findBlock] at hc, fun hc => absurd hc h⟩⟩

/-- Non-vacuity: two writes to the same name in one block, one to the same name in another. -/
example : parGets (runWrites [] [⟨['a'], ['n'], ['1'], none⟩, ⟨['b'], ['n'], ['2'], none⟩,
    ⟨['a'], ['n'], ['3'], none⟩]) ['a'] ['n'] = .ok ['3'] := by decide

/-! ## C02 -/

theorem digitsVal_toDigitsCore (fuel n : Nat) (acc : Str) (a : Nat) (hf : n < fuel) :
    digitsVal (Nat.toDigitsCore 10 fuel n acc) a =
      digitsVal acc (a * 10 ^ (Nat.toDigitsCore 10 fuel n []).length + n) := by
  induction fuel generalizing n acc a with
  | zero => omega
  | succ fuel ih =>
    have hd : ∀ d, d < 10 → (Nat.digitChar d).isDigit = true ∧ (Nat.digitChar d).toNat - 48 = d := by
      intro d hd
      have : d = 0 ∨ d = 1 ∨ d = 2 ∨ d = 3 ∨ d = 4 ∨ d = 5 ∨ d = 6 ∨ d = 7 ∨ d = 8 ∨ d = 9 := by omega
      rcases this with rfl | rfl | rfl | rfl | rfl | rfl | rfl | rfl | rfl | rfl <;> decide
    have hm := hd (n % 10) (Nat.mod_lt _ (by decide))
    simp only [Nat.toDigitsCore]
    by_cases h0 : n / 10 = 0
    · simp only [h0, if_true]
      simp only [digitsVal, hm.1, if_true, hm.2, List.length_singleton, Nat.pow_one]
      have : n % 10 = n := by omega
      rw [this]
    · simp only [h0, if_false]
      have hlen : (Nat.toDigitsCore 10 fuel (n/10) [Nat.digitChar (n % 10)]).length
          = (Nat.toDigitsCore 10 fuel (n/10) []).length + 1 := by
        have : ∀ (fuel n : Nat) (acc : Str), (Nat.toDigitsCore 10 fuel n acc).length =
            (Nat.toDigitsCore 10 fuel n []).length + acc.length := by
          intro fuel
          induction fuel with
          | zero => intro n acc; simp [Nat.toDigitsCore]
          | succ f ih2 =>
            intro n acc
            simp only [Nat.toDigitsCore]
            split_ifs
            · simp [Nat.add_comm]
            · rw [ih2 _ (_ :: acc), ih2 _ [_]]; simp; omega
        rw [this]; rfl
      rw [ih (n/10) _ a (by omega), hlen]
      simp only [digitsVal, hm.1, if_true, hm.2]
      congr 1
      rw [Nat.pow_succ]
      have : n = 10 * (n / 10) + n % 10 := (Nat.div_add_mod n 10).symm
      generalize 10 ^ (Nat.toDigitsCore 10 fuel (n/10) []).length = P at *
      rw [Nat.add_mul, Nat.mul_assoc]
      omega

theorem toDigitsCore_head (fuel n : Nat) (acc : Str) (hf : 0 < fuel) :
    ∃ d t, d < 10 ∧ Nat.toDigitsCore 10 fuel n acc = Nat.digitChar d :: t := by
  induction fuel generalizing n acc with
  | zero => omega
  | succ fuel ih =>
    simp only [Nat.toDigitsCore]
    split_ifs with h
    · exact ⟨n % 10, acc, Nat.mod_lt _ (by decide), rfl⟩
    · by_cases hf0 : fuel = 0
      · subst hf0; exact ⟨n % 10, acc, Nat.mod_lt _ (by decide), rfl⟩
      · exact ih _ _ (by omega)

/-- Writing an integer with `"%d"` and reading it with `atoi` gives the integer back. -/
theorem atoi_fmtInt (n : Int) : atoi (fmtInt n) = n := by
  have hpos : ∀ k : Nat, digitsVal (Nat.toDigits 10 k) 0 = k := by
    intro k
    unfold Nat.toDigits
    rw [digitsVal_toDigitsCore _ _ _ _ (by omega)]
    simp [digitsVal]
  cases n with
  | ofNat k =>
    obtain ⟨d, t, hd, e⟩ := toDigitsCore_head (k+1) k [] (by omega)
    have e' : Nat.toDigits 10 k = Nat.digitChar d :: t := e
    have hk := hpos k
    simp only [fmtInt, atoi]
    rw [e'] at hk ⊢
    have : d = 0 ∨ d = 1 ∨ d = 2 ∨ d = 3 ∨ d = 4 ∨ d = 5 ∨ d = 6 ∨ d = 7 ∨ d = 8 ∨ d = 9 := by omega
    have hc : isSpace (Nat.digitChar d) = false ∧ Nat.digitChar d ≠ '-' ∧ Nat.digitChar d ≠ '+' := by
      rcases this with rfl | rfl | rfl | rfl | rfl | rfl | rfl | rfl | rfl | rfl <;> decide
    rw [List.dropWhile_cons_of_neg (by simp [hc.1])]
    split
    · rename_i heq; simp only [List.cons.injEq] at heq; exact absurd heq.1 hc.2.1
    · rename_i heq; simp only [List.cons.injEq] at heq; exact absurd heq.1 hc.2.2
    · rw [hk]; rfl
  | negSucc k =>
    simp only [fmtInt, atoi]
    rw [List.dropWhile_cons_of_neg (by decide)]
    simp only [hpos]
    omega

/-- **C02**, strings: `par_gets_def` never fails; it returns the stored value, or the default if there
is none; afterwards exactly that value is stored, every other pair reads as before, and an existing
value's database is not changed at all. -/
theorem gets_def_spec (db : DB) (B N d : Str) : ∃ v db', parGetsDef db B N d = .ok (v, db') ∧
    (parExist db B N = true → parGets db B N = .ok v ∧ db' = db) ∧
    (parExist db B N = false → v = d) ∧
    parExist db' B N = true ∧ parGets db' B N = .ok v ∧
    ∀ b n, ¬ (b = B ∧ n = N) → parGets db' b n = parGets db b n ∧ parExist db' b n = parExist db b n := by
  unfold parGetsDef
  cases he : parExist db B N with
  | true =>
    rw [if_pos rfl]
    have he' := he
    rw [parExist_eq] at he'
    cases hl : lookup db B N with
    | none => rw [hl] at he'; simp at he'
    | some p =>
      have hg : parGets db B N = .ok p.value := by rw [parGets_eq, hl]
      rw [hg]
      exact ⟨p.value, db, rfl, fun _ => ⟨rfl, rfl⟩, fun h => by simp at h, he, hg,
        fun b n _ => ⟨rfl, rfl⟩⟩
  | false =>
    rw [if_neg (by simp)]
    have hl := lookup_sets db B N d (some defaultValue)
    refine ⟨d, _, rfl, fun h => by simp at h, fun _ => rfl, ?_, ?_, ?_⟩
    · rw [parExist_eq, hl, if_pos ⟨rfl, rfl⟩]; rfl
    · rw [parGets_eq, hl, if_pos ⟨rfl, rfl⟩]
    · intro b n hbn
      rw [parGets_eq, parGets_eq, parExist_eq, parExist_eq, hl, if_neg hbn]
      exact ⟨rfl, rfl⟩

/-- **C02**, integers: the same for `par_geti_def`, including the formatting with `"%d"` and the
reading with `atoi`. -/
theorem geti_def_spec (db : DB) (B N : Str) (d : Int) : ∃ v db', parGetiDef db B N d = .ok (v, db') ∧
    (parExist db B N = true → parGeti db B N = .ok v ∧ db' = db) ∧
    (parExist db B N = false → v = d) ∧
    parExist db' B N = true ∧ parGeti db' B N = .ok v ∧
    ∀ b n, ¬ (b = B ∧ n = N) → parGets db' b n = parGets db b n ∧ parExist db' b n = parExist db b n := by
  unfold parGetiDef
  cases he : parExist db B N with
  | true =>
    rw [if_pos rfl]
    have he' := he
    rw [parExist_eq] at he'
    cases hl : lookup db B N with
    | none => rw [hl] at he'; simp at he'
    | some p =>
      have hg : parGets db B N = .ok p.value := by rw [parGets_eq, hl]
      have hgi : parGeti db B N = .ok (atoi p.value) := by unfold parGeti; rw [hg]; rfl
      rw [hg]
      exact ⟨atoi p.value, db, rfl, fun _ => ⟨hgi, rfl⟩, fun h => by simp at h, he, hgi,
        fun b n _ => ⟨rfl, rfl⟩⟩
  | false =>
    rw [if_neg (by simp)]
    have hl := lookup_sets db B N (fmtInt d) (some defaultValue)
    refine ⟨d, _, rfl, fun h => by simp at h, fun _ => rfl, ?_, ?_, ?_⟩
    · rw [parExist_eq, parSeti, hl, if_pos ⟨rfl, rfl⟩]; rfl
    · unfold parGeti
      rw [parGets_eq, parSeti, hl, if_pos ⟨rfl, rfl⟩]
      simp [atoi_fmtInt]
    · intro b n hbn
      rw [parGets_eq, parGets_eq, parExist_eq, parExist_eq, parSeti, hl, if_neg hbn]
      exact ⟨rfl, rfl⟩

example : parExist (parSets [] ['a'] ['n'] ['7'] none) ['a'] ['n'] = true ∧
    (parGetiDef (parSets [] ['a'] ['n'] ['7'] none) ['a'] ['m'] (-12) matches .ok (-12, _)) := by decide

/-! ## C03 -/

/-- Every way a database is changed. -/
inductive Op where
  | open_ (file : Str)
  | cmdline (args : List Str)
  | sets (block name value : Str) (comment : Option Str)
  | getsDef (block name defv : Str)
  | getiDef (block name : Str) (defv : Int)

def Op.run (db : DB) : Op → Res DB
  | .open_ f => parOpen f db
  | .cmdline as => parCmdline db as
  | .sets b n v c => .ok (parSets db b n v c)
  | .getsDef b n d => do let r ← parGetsDef db b n d; return r.2
  | .getiDef b n d => do let r ← parGetiDef db b n d; return r.2

def runOps : DB → List Op → Res DB
  | db, [] => .ok db
  | db, o :: os => do let db ← o.run db; runOps db os

theorem cmdArg_ok {db db' : DB} {a : Str} (h : cmdArg db a = .ok db') :
    (db' = db ∧ ∀ b n v t, splitAtChar '/' a = some (b, t) → splitAtChar '=' t ≠ some (n, v)) ∨
    ∃ b t n v i, splitAtChar '/' a = some (b, t) ∧ splitAtChar '=' t = some (n, v) ∧
      blockIndex db b = some i ∧ (lookup db b n).isSome ∧
      db' = db.modify i (fun bp => { bp with
              pars := setValue bp.pars n v
              maxValue := if v.length > bp.maxValue then v.length else bp.maxValue }) := by
  unfold cmdArg at h
  split at h
  · rename_i hs
    simp only [Res.ok.injEq] at h
    exact .inl ⟨h.symm, fun b n v t e => by rw [hs] at e; simp at e⟩
  · rename_i b t hs
    split at h
    · rename_i ht
      simp only [Res.ok.injEq] at h
      refine .inl ⟨h.symm, fun b' n v t' e => ?_⟩
      rw [hs] at e; simp only [Option.some.injEq, Prod.mk.injEq] at e
      rw [← e.2, ht]; simp
    · rename_i n v ht
      split at h
      · simp at h
      · rename_i i hi
        split at h
        · simp at h
        · rename_i bp hb
          split at h
          · simp at h
          · rename_i p hp
            simp only [Res.ok.injEq] at h
            refine .inr ⟨b, t, n, v, i, hs, ht, hi, ?_, h.symm⟩
            unfold lookup; rw [hb]; simp [hp]

theorem unique_cmdArg {db db' : DB} {a : Str} (h : Unique db) (e : cmdArg db a = .ok db') : Unique db' := by
  rcases cmdArg_ok e with ⟨rfl, _⟩ | ⟨b, t, n, v, i, _, _, _, _, rfl⟩
  · exact h
  · refine unique_modify (f := fun bp => { bp with
              pars := setValue bp.pars n v
              maxValue := if v.length > bp.maxValue then v.length else bp.maxValue })
      (fun _ => rfl) ?_ h i
    intro bp hbp
    have := congrArg (List.map Prod.fst) (setValue_names bp.pars n v)
    simp only [List.map_map, Function.comp_def] at this
    rw [this]; exact hbp

theorem unique_cmdline (as : List Str) : ∀ {db db' : DB}, Unique db → parCmdline db as = .ok db' → Unique db' := by
  induction as with
  | nil => intro db db' h e; simp only [parCmdline, Res.ok.injEq] at e; subst e; exact h
  | cons a as ih =>
    intro db db' h e
    simp only [parCmdline] at e
    cases ha : cmdArg db a with
    | ok d => rw [ha] at e; exact ih (unique_cmdArg h ha) e
    | fatal => rw [ha] at e; simp at e
    | ub => rw [ha] at e; simp at e

theorem unique_op {db db' : DB} {o : Op} (h : Unique db) (e : o.run db = .ok db') : Unique db' := by
  cases o with
  | open_ f => exact unique_openLines _ _ _ _ h e
  | cmdline as => exact unique_cmdline as h e
  | sets b n v c => simp only [Op.run, Res.ok.injEq] at e; subst e; exact unique_sets h b n v c
  | getsDef b n d =>
    simp only [Op.run, parGetsDef] at e
    split_ifs at e with hx
    · cases hg : parGets db b n with
      | ok v => rw [hg] at e; simp at e; subst e; exact h
      | fatal => rw [hg] at e; simp at e
      | ub => rw [hg] at e; simp at e
    · simp at e; subst e; exact unique_sets h _ _ _ _
  | getiDef b n d =>
    simp only [Op.run, parGetiDef] at e
    split_ifs at e with hx
    · cases hg : parGets db b n with
      | ok v => rw [hg] at e; simp at e; subst e; exact h
      | fatal => rw [hg] at e; simp at e
      | ub => rw [hg] at e; simp at e
    · simp at e; subst e; exact unique_sets h _ _ _ _

/-- **C03.** Whatever operations built the database (files, command lines, writes, defaulted reads, in
any order), no two blocks have the same name and no two parameters of a block have the same name. -/
theorem names_unique (os : List Op) : ∀ (db db' : DB), Unique db → runOps db os = .ok db' → Unique db' := by
  induction os with
  | nil => intro db db' h e; simp only [runOps, Res.ok.injEq] at e; subst e; exact h
  | cons o os ih =>
    intro db db' h e
    simp only [runOps] at e
    cases ho : o.run db with
    | ok d => rw [ho] at e; exact ih _ _ (unique_op h ho) e
    | fatal => rw [ho] at e; simp at e
    | ub => rw [ho] at e; simp at e

/-- The database at start-up is empty, hence unique; so are all databases of a run. -/
theorem names_unique_run (os : List Op) (db : DB) (h : runOps [] os = .ok db) :
    (db.map (·.name)).Nodup ∧ ∀ bp ∈ db, (bp.pars.map (·.name)).Nodup :=
  names_unique os [] db ⟨by simp, by simp⟩ h

/-- Repeated block and repeated name in a file: merged into the first block, last value wins. -/
example : runOps [] [.open_ "<a>\nx = 1 # c\n<b>\nx = 2\n<a>\ny = 3\nx=4\n".toList] =
    .ok [⟨['a'], [⟨['x'], ['4'], some ['c']⟩, ⟨['y'], ['3'], none⟩], 1, 1⟩,
         ⟨['b'], [⟨['x'], ['2'], none⟩], 1, 1⟩] := by decide

/-! ## C05 -/

/-- Specification: `arg` is `block/name=value`, split at the first `/` and at the first `=` after it. -/
def IsAssign (arg block name value : Str) : Prop :=
  arg = block ++ '/' :: (name ++ '=' :: value) ∧ '/' ∉ block ∧ '=' ∉ name

/-- Everything but the values: block names and, for each, parameter names and comments, in order. -/
def skeleton (db : DB) : List (Str × List (Str × Option Str)) :=
  db.map (fun b => (b.name, b.pars.map (fun p => (p.name, p.comment))))

theorem splitAtChar_iff (c : Char) (s a t : Str) :
    splitAtChar c s = some (a, t) ↔ s = a ++ c :: t ∧ c ∉ a := by
  induction s generalizing a with
  | nil => simp [splitAtChar]
  | cons d s ih =>
    simp only [splitAtChar]
    by_cases h : d = c
    · subst h
      rw [if_pos rfl]
      constructor
      · rintro h; simp only [Option.some.injEq, Prod.mk.injEq] at h; obtain ⟨rfl, rfl⟩ := h; simp
      · rintro ⟨h1, h2⟩
        cases a with
        | nil => simp at h1; simp [h1]
        | cons x a => simp at h1 h2; exact absurd h1.1 h2.1
    · rw [if_neg h]
      constructor
      · intro e
        obtain ⟨⟨a', t'⟩, e1, e2⟩ := Option.map_eq_some_iff.1 e
        simp only [Prod.mk.injEq] at e2
        obtain ⟨rfl, rfl⟩ := e2
        obtain ⟨rfl, hc⟩ := (ih a').1 e1
        exact ⟨rfl, by simp [hc]; exact fun e => h e.symm⟩
      · rintro ⟨h1, h2⟩
        cases a with
        | nil => simp at h1; exact absurd h1.1 h
        | cons x a =>
          simp at h1 h2
          obtain ⟨rfl, h1⟩ := h1
          rw [(ih a).2 ⟨h1, h2.2⟩]; rfl

theorem isAssign_iff (arg b n v : Str) : IsAssign arg b n v ↔
    ∃ t, splitAtChar '/' arg = some (b, t) ∧ splitAtChar '=' t = some (n, v) := by
  simp only [splitAtChar_iff, IsAssign]
  constructor
  · rintro ⟨h1, h2, h3⟩; exact ⟨_, ⟨h1, h2⟩, rfl, h3⟩
  · rintro ⟨t, ⟨h1, h2⟩, rfl, h3⟩; exact ⟨h1, h2, h3⟩

theorem isAssign_unique {a b n v b' n' v' : Str} (h : IsAssign a b n v) (h' : IsAssign a b' n' v') :
    b = b' ∧ n = n' ∧ v = v' := by
  rw [isAssign_iff] at h h'
  obtain ⟨t, h1, h2⟩ := h
  obtain ⟨t', h1', h2'⟩ := h'
  rw [h1] at h1'
  simp only [Option.some.injEq, Prod.mk.injEq] at h1'
  obtain ⟨rfl, rfl⟩ := h1'
  rw [h2] at h2'
  simp only [Option.some.injEq, Prod.mk.injEq] at h2'
  exact ⟨rfl, h2'.1, h2'.2⟩

theorem skeleton_modify {f : Block → Block} (hf : ∀ b, (f b).name = b.name)
    (hp : ∀ b, (f b).pars.map (fun p => (p.name, p.comment)) = b.pars.map (fun p => (p.name, p.comment)))
    (db : DB) (i : Nat) : skeleton (db.modify i f) = skeleton db := by
  unfold skeleton
  induction db generalizing i with
  | nil => simp
  | cons b db ih =>
    cases i with
    | zero => simp [hf, hp]
    | succ i => simp [ih]

/-- One argument. -/
theorem cmdArg_spec (db : DB) (a : Str) :
    (∀ b n v, IsAssign a b n v →
      (lookup db b n = none → cmdArg db a = .fatal) ∧
      (∀ p, lookup db b n = some p → ∃ db', cmdArg db a = .ok db' ∧ skeleton db' = skeleton db ∧
        ∀ b' n', lookup db' b' n' = if b' = b ∧ n' = n then some { p with value := v } else lookup db b' n')) ∧
    ((∀ b n v, ¬ IsAssign a b n v) → cmdArg db a = .ok db) := by
  constructor
  · intro b n v ha
    obtain ⟨t, h1, h2⟩ := (isAssign_iff _ _ _ _).1 ha
    have hres : cmdArg db a = (match blockIndex db b with
      | none => .fatal
      | some i =>
        match findBlock db b with
        | none => .fatal
        | some bp =>
          match findPar bp n with
          | none => .fatal
          | some _ =>
            .ok (db.modify i (fun bp => { bp with
              pars := setValue bp.pars n v
              maxValue := if v.length > bp.maxValue then v.length else bp.maxValue }))) := by
      unfold cmdArg; rw [h1]; dsimp only; rw [h2]; rfl
    constructor
    · intro hl
      rw [hres]
      cases hi : blockIndex db b with
      | none => rfl
      | some i =>
        dsimp only
        unfold lookup at hl
        cases hb : findBlock db b with
        | none => rfl
        | some bp =>
          rw [hb] at hl
          simp only [Option.bind_some] at hl
          dsimp only
          rw [hl]
    · intro p hl
      unfold lookup at hl
      cases hb : findBlock db b with
      | none => rw [hb] at hl; simp at hl
      | some bp =>
        rw [hb] at hl
        simp only [Option.bind_some] at hl
        cases hi : blockIndex db b with
        | none =>
          rw [blockIndex_none, ← findBlock_none] at hi
          rw [hi] at hb; simp at hb
        | some i =>
          rw [hi, hb] at hres
          dsimp only at hres
          rw [hl] at hres
          refine ⟨_, hres, skeleton_modify (f := fun bp => { bp with
              pars := setValue bp.pars n v
              maxValue := if v.length > bp.maxValue then v.length else bp.maxValue })
            (fun _ => rfl) (fun bp => setValue_names _ _ _) db i, ?_⟩
          intro b' n'
          unfold lookup
          rw [findBlock_modify (f := fun bp => { bp with
              pars := setValue bp.pars n v
              maxValue := if v.length > bp.maxValue then v.length else bp.maxValue })
            (fun _ => rfl) b b' db i hi, hb]
          by_cases hbb : b' = b
          · subst hbb
            have := find_setValue bp.pars n v n'
            have hl' := hl
            simp only [findPar] at hl'
            rw [hl'] at this
            simp only [if_true, Option.map_some, Option.bind_some, findPar, this, hb, true_and]
          · simp [hbb]
  · intro h
    unfold cmdArg
    cases h1 : splitAtChar '/' a with
    | none => rfl
    | some r =>
      obtain ⟨b, t⟩ := r
      dsimp only
      cases h2 : splitAtChar '=' t with
      | none => rfl
      | some r =>
        obtain ⟨n, v⟩ := r
        exact absurd ((isAssign_iff _ _ _ _).2 ⟨t, h1, h2⟩) (h b n v)

/-- **C05.** `par_cmdline` ends in a fatal error exactly if some argument of the form
`block/name=value` names a parameter that is not in the database.  Otherwise blocks, names, their order
and comments are unchanged, and every parameter has the value of the last argument naming it, or its
old value if there is none. -/
theorem cmdline_spec (args : List Str) : ∀ db : DB,
    (parCmdline db args = .fatal ↔ ∃ a ∈ args, ∃ b n v, IsAssign a b n v ∧ parExist db b n = false) ∧
    ((¬ ∃ a ∈ args, ∃ b n v, IsAssign a b n v ∧ parExist db b n = false) →
      ∃ db', parCmdline db args = .ok db' ∧ skeleton db' = skeleton db ∧
      ∀ b n,
        ((∀ a ∈ args, ∀ v, ¬ IsAssign a b n v) → lookup db' b n = lookup db b n) ∧
        (∀ before a after v, args = before ++ a :: after → IsAssign a b n v →
          (∀ a' ∈ after, ∀ v', ¬ IsAssign a' b n v') → parGets db' b n = .ok v)) := by
  induction args with
  | nil =>
    intro db
    refine ⟨by simp [parCmdline], fun _ => ⟨db, rfl, rfl, fun b n => ⟨fun _ => rfl, ?_⟩⟩⟩
    intro before a after v h; simp at h
  | cons a as ih =>
    intro db
    simp only [parCmdline]
    by_cases hform : ∃ b n v, IsAssign a b n v
    · obtain ⟨b, n, v, ha⟩ := hform
      have hsp := (cmdArg_spec db a).1 b n v ha
      cases hl : lookup db b n with
      | none =>
        have hex : parExist db b n = false := by rw [parExist_eq, hl]; rfl
        rw [hsp.1 hl]
        refine ⟨⟨fun _ => ⟨a, by simp, b, n, v, ha, hex⟩, fun _ => rfl⟩, fun hc => ?_⟩
        exact absurd ⟨a, by simp, b, n, v, ha, hex⟩ hc
      | some p =>
        obtain ⟨db1, h1, h2, h3⟩ := hsp.2 p hl
        rw [h1]
        simp only [Res.bind_ok]
        have hexist : ∀ b' n', parExist db1 b' n' = parExist db b' n' := by
          intro b' n'
          rw [parExist_eq, parExist_eq, h3]
          split_ifs with hc
          · rw [hc.1, hc.2, hl]; rfl
          · rfl
        have hequiv : (∃ a' ∈ as, ∃ b n v, IsAssign a' b n v ∧ parExist db1 b n = false) ↔
            (∃ a' ∈ a :: as, ∃ b n v, IsAssign a' b n v ∧ parExist db b n = false) := by
          constructor
          · rintro ⟨a', ha', b', n', v', h, e⟩
            exact ⟨a', by simp [ha'], b', n', v', h, by rw [← hexist]; exact e⟩
          · rintro ⟨a', ha', b', n', v', h, e⟩
            rcases List.mem_cons.1 ha' with rfl | ha'
            · obtain ⟨rfl, rfl, rfl⟩ := isAssign_unique ha h
              rw [parExist_eq, hl] at e; simp at e
            · exact ⟨a', ha', b', n', v', h, by rw [hexist]; exact e⟩
        obtain ⟨i1, i2⟩ := ih db1
        refine ⟨i1.trans hequiv, fun hc => ?_⟩
        obtain ⟨db', e1, e2, e3⟩ := i2 (fun hx => hc (hequiv.1 hx))
        refine ⟨db', e1, e2.trans h2, fun b' n' => ⟨?_, ?_⟩⟩
        · intro hno
          rw [(e3 b' n').1 (fun a' ha' v' => hno a' (by simp [ha']) v'), h3, if_neg]
          rintro ⟨rfl, rfl⟩
          exact hno a (by simp) v ha
        · intro before a' after v' heq hass hlater
          cases before with
          | nil =>
            simp only [List.nil_append, List.cons.injEq] at heq
            obtain ⟨rfl, rfl⟩ := heq
            obtain ⟨rfl, rfl, rfl⟩ := isAssign_unique ha hass
            rw [parGets_eq, (e3 _ _).1 hlater, h3, if_pos ⟨rfl, rfl⟩]
          | cons x before =>
            simp only [List.cons_append, List.cons.injEq] at heq
            exact (e3 b' n').2 before a' after v' heq.2 hass hlater
    · have hno : ∀ b n v, ¬ IsAssign a b n v := fun b n v h => hform ⟨b, n, v, h⟩
      rw [(cmdArg_spec db a).2 hno]
      simp only [Res.bind_ok]
      have hequiv : (∃ a' ∈ as, ∃ b n v, IsAssign a' b n v ∧ parExist db b n = false) ↔
          (∃ a' ∈ a :: as, ∃ b n v, IsAssign a' b n v ∧ parExist db b n = false) := by
        constructor
        · rintro ⟨a', ha', h⟩; exact ⟨a', by simp [ha'], h⟩
        · rintro ⟨a', ha', b', n', v', h, e⟩
          rcases List.mem_cons.1 ha' with rfl | ha'
          · exact absurd h (hno b' n' v')
          · exact ⟨a', ha', b', n', v', h, e⟩
      obtain ⟨i1, i2⟩ := ih db
      refine ⟨i1.trans hequiv, fun hc => ?_⟩
      obtain ⟨db', e1, e2, e3⟩ := i2 (fun hx => hc (hequiv.1 hx))
      refine ⟨db', e1, e2, fun b' n' => ⟨?_, ?_⟩⟩
      · intro h; exact (e3 b' n').1 (fun a' ha' v' => h a' (by simp [ha']) v')
      · intro before a' after v' heq hass hlater
        cases before with
        | nil =>
          simp only [List.nil_append, List.cons.injEq] at heq
          obtain ⟨rfl, rfl⟩ := heq
          exact absurd hass (hno _ _ _)
        | cons x before =>
          simp only [List.cons_append, List.cons.injEq] at heq
          exact (e3 b' n').2 before a' after v' heq.2 hass hlater

/-- Non-vacuity: an override keeps the comment; arguments that are not assignments are skipped. -/
example : parCmdline [⟨['a'], [⟨['x'], ['1'], some ['c']⟩], 1, 1⟩] ["-i".toList, "a/x=b=/2".toList, "x=1".toList]
    = .ok [⟨['a'], [⟨['x'], "b=/2".toList, some ['c']⟩], 1, 4⟩] ∧
    parCmdline [⟨['a'], [⟨['x'], ['1'], some ['c']⟩], 1, 1⟩] ["a/y=2".toList] = .fatal := by decide

end Athena.Par
