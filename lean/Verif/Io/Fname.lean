import Verif.Base
import Mathlib.Tactic.Linarith
import Mathlib.Data.List.Basic

/-!
# src/ath_files.c: names of output files, and the loops over Domains that use them; C45, C56

Strings are lists of characters without the terminating NUL.
-/

namespace Athena.Fname

abbrev Str := List Char

/-- `sprintf("%d")` of a non-negative number. -/
def dec (n : ℕ) : Str := Nat.toDigits 10 n

/-- `sprintf("%0<w>d")` of a non-negative number: padded with zeros to at least `w` digits. -/
def decPad (w n : ℕ) : Str := List.replicate (w - (dec n).length) '0' ++ dec n

/-- The arguments of `ath_fname` (src/ath_files.c:44-47); `none` is NULL.  `dlen` and `idump` are `int`. -/
structure Args where
  path : Option Str
  base : Str
  lev : Option Str
  dom : Option Str
  dlen : ℤ
  idump : ℤ
  id : Option Str
  ext : Str

/-- The number of bytes allocated, src/ath_files.c:53-59. -/
def size (a : Args) : ℕ :=
  2 + a.base.length + a.ext.length +
  (match a.path with | some p => 1 + p.length | none => 0) +
  (match a.lev with | some p => 1 + p.length | none => 0) +
  (match a.dom with | some p => 1 + p.length | none => 0) +
  (if a.dlen > 0 then (if a.dlen > 10 then a.dlen.toNat else 10) + 1 else 0) +
  (match a.id with | some p => 1 + p.length | none => 0)

/-- Append characters and a NUL at the end of the string in a buffer of `sz` bytes. -/
def put (sz : ℕ) (cur s : Str) : Res Str :=
  if cur.length + s.length + 1 ≤ sz then .ok (cur ++ s) else .ub

/-- The path and its slash, src/ath_files.c:69-81.  The test `cp[-1] != '/'` reads before the buffer when the
path is the empty string. -/
def putPath (sz : ℕ) : Option Str → Res Str
  | none => .ok []
  | some p => do
    let s ← put sz [] p
    match s.getLast? with
    | none => .ub
    | some c => if c ≠ '/' then put sz s ['/'] else .ok s

/-- The optional level and Domain strings preceded by '-', src/ath_files.c:90-110. -/
def putTag (sz : ℕ) (s : Str) : Option Str → Res Str
  | none => .ok s
  | some l => do let s ← put sz s ['-']; put sz s l

/-- Dump number, id and extension, src/ath_files.c:114-129. -/
def putEnd (sz : ℕ) (s : Str) (a : Args) : Res Str :=
  match a.id with
  | some id =>
    if a.dlen > 0 ∧ a.idump ≥ 0 then
      put sz s ('.' :: decPad a.dlen.toNat a.idump.toNat ++ '.' :: id ++ '.' :: a.ext)
    else put sz s ('.' :: id ++ '.' :: a.ext)
  | none =>
    if a.dlen > 0 ∧ a.idump ≥ 0 then
      put sz s ('.' :: decPad a.dlen.toNat a.idump.toNat ++ '.' :: a.ext)
    else put sz s ('.' :: a.ext)

/-- `ath_fname`, src/ath_files.c:44-132 (when `malloc` succeeds). -/
def fname (a : Args) : Res Str := do
  let sz := size a
  let s ← putPath sz a.path
  let s ← put sz s a.base
  let s ← putTag sz s a.lev
  let s ← putTag sz s a.dom
  putEnd sz s a

/-- `sprintf(str,"lev%d",n)` into `char str[8]`, e.g. src/dump_vtk.c:94-95. -/
def tagged (tag : Str) (n : ℕ) : Res Str :=
  if (tag ++ dec n).length + 1 ≤ 8 then .ok (tag ++ dec n) else .ub

/-! ## Specification: the documented form
`[path]<basename>[-lev#][-dom#][.idump][.id].<ext>` (src/ath_files.c:7-20) -/

/-- An optional part with its separator. -/
def opt (c : Char) : Option Str → Str
  | none => []
  | some s => c :: s

theorem opt_none (c : Char) : opt c none = [] := rfl
theorem opt_some (c : Char) (s : Str) : opt c (some s) = c :: s := rfl

/-- The path ends with exactly one added slash unless it has one. -/
def pathPart : Option Str → Str
  | none => []
  | some p => if p.getLast? = some '/' then p else p ++ ['/']

/-- The documented name. -/
def documented (a : Args) : Str :=
  pathPart a.path ++ a.base ++ opt '-' a.lev ++ opt '-' a.dom ++
    (if a.dlen > 0 ∧ a.idump ≥ 0 then '.' :: decPad a.dlen.toNat a.idump.toNat else []) ++
    opt '.' a.id ++ '.' :: a.ext

/-! ## Lemmas -/

theorem dec_digit (n : ℕ) (c : Char) (h : c ∈ dec n) : c.isDigit = true :=
  Nat.isDigit_of_mem_toDigits (b := 10) (by decide) (by decide) h

theorem decPad_digit (w n : ℕ) (c : Char) (h : c ∈ decPad w n) : c.isDigit = true := by
  rcases List.mem_append.mp h with h | h
  · rw [List.eq_of_mem_replicate h]; rfl
  · exact dec_digit n c h

theorem dec_inj {n m : ℕ} (h : dec n = dec m) : n = m := by
  have := congrArg (fun l => Nat.ofDigitChars 10 l 0) h
  simpa [dec, Nat.ofDigitChars_ten_toDigits] using this

theorem decPad_inj {w n m : ℕ} (h : decPad w n = decPad w m) : n = m := by
  have := congrArg (fun l => Nat.ofDigitChars 10 l 0) h
  simpa [decPad, dec, Nat.ofDigitChars_append, Nat.ofDigitChars_replicate_zero,
    Nat.ofDigitChars_ten_toDigits] using this

theorem decPad_length (w n : ℕ) (h : n ≤ 2147483647) : (decPad w n).length ≤ if w > 10 then w else 10 := by
  have : (dec n).length ≤ 10 := (Nat.length_toDigits_le_iff (by decide) (by decide)).mpr (by omega)
  rw [decPad, List.length_append, List.length_replicate]
  split_ifs <;> omega

/-- Digits followed by something else can be split off in one way only. -/
theorem digits_split {a a' x x' : Str} (ha : ∀ c ∈ a, c.isDigit = true) (ha' : ∀ c ∈ a', c.isDigit = true)
    (hx : ∀ c, x.head? = some c → c.isDigit = false) (hx' : ∀ c, x'.head? = some c → c.isDigit = false)
    (h : a ++ x = a' ++ x') : a = a' ∧ x = x' := by
  induction a generalizing a' with
  | nil =>
    cases a' with
    | nil => exact ⟨rfl, h⟩
    | cons c a' =>
      have h1 := hx c (by rw [List.nil_append] at h; rw [h]; rfl)
      rw [ha' c (List.mem_cons_self ..)] at h1; cases h1
  | cons c a ih =>
    cases a' with
    | nil =>
      have h1 := hx' c (by rw [List.nil_append] at h; rw [← h]; rfl)
      rw [ha c (List.mem_cons_self ..)] at h1; cases h1
    | cons c' a' =>
      simp only [List.cons_append, List.cons.injEq] at h
      obtain ⟨e1, e2⟩ := ih (fun d hd => ha d (List.mem_cons_of_mem _ hd))
        (fun d hd => ha' d (List.mem_cons_of_mem _ hd)) h.2
      exact ⟨by rw [h.1, e1], e2⟩

theorem put_ok {sz : ℕ} {cur s : Str} (h : cur.length + s.length + 1 ≤ sz) : put sz cur s = .ok (cur ++ s) :=
  if_pos h

theorem pathPart_length (p : Str) : (pathPart (some p)).length ≤ p.length + 1 := by
  simp only [pathPart]; split_ifs <;> simp

/-! ## C45 -/

/-- C45: for every set of arguments the name has the documented form and, with its NUL, fits in the
memory allocated for it - unless the path is the empty string. -/
theorem fname_documented (a : Args) (hp : a.path ≠ some []) (hi : a.idump ≤ 2147483647) :
    fname a = .ok (documented a) ∧ (documented a).length + 1 ≤ size a := by
  have hlen : (documented a).length + 1 ≤ size a := by
    have hn : (if a.dlen > 0 ∧ a.idump ≥ 0 then '.' :: decPad a.dlen.toNat a.idump.toNat else ([] : Str)).length
        ≤ if a.dlen > 0 then (if a.dlen > 10 then a.dlen.toNat else 10) + 1 else 0 := by
      by_cases h1 : a.dlen > 0
      · rw [if_pos h1]
        by_cases h2 : a.idump ≥ 0
        · rw [if_pos ⟨h1, h2⟩, List.length_cons]
          have := decPad_length a.dlen.toNat a.idump.toNat (by omega)
          by_cases h3 : a.dlen > 10
          · rw [if_pos h3]; rw [if_pos (by omega)] at this; omega
          · rw [if_neg h3]; rw [if_neg (by omega)] at this; omega
        · rw [if_neg (by tauto)]; simp
      · rw [if_neg h1, if_neg (by tauto)]; simp
    have hpl : (pathPart a.path).length ≤ match a.path with | some p => 1 + p.length | none => 0 := by
      rcases a.path with _ | p
      · simp [pathPart]
      · have := pathPart_length p
        show _ ≤ 1 + p.length; omega
    have ho : ∀ (c : Char) (o : Option Str), (opt c o).length = match o with | some p => 1 + p.length | none => 0 := by
      intro c o; rcases o with _ | o
      · rfl
      · simp [opt]; omega
    unfold documented size
    simp only [List.length_append, List.length_cons, ho]
    omega
  refine ⟨?_, hlen⟩
  have key : ∀ s t : Str, s ++ t = documented a → s.length + 1 ≤ size a := by
    intro s t h
    have := congrArg List.length h
    rw [List.length_append] at this; omega
  have put' : ∀ s t u : Str, s ++ t ++ u = documented a → put (size a) s t = .ok (s ++ t) := by
    intro s t u h
    have := key (s ++ t) u h
    rw [List.length_append] at this
    exact put_ok (by omega)
  -- the tail after the path
  set T : Str := (if a.dlen > 0 ∧ a.idump ≥ 0 then '.' :: decPad a.dlen.toNat a.idump.toNat else []) ++
    opt '.' a.id ++ '.' :: a.ext with hT
  have hdoc : documented a = pathPart a.path ++ a.base ++ opt '-' a.lev ++ opt '-' a.dom ++ T := by
    unfold documented; simp [hT]
  have hpath : putPath (size a) a.path = .ok (pathPart a.path) := by
    rcases hpa : a.path with _ | p
    · rfl
    · simp only [putPath]
      have hd : ∃ u, pathPart (some p) ++ u = documented a := by
        refine ⟨a.base ++ opt '-' a.lev ++ opt '-' a.dom ++ T, ?_⟩
        rw [hdoc, hpa]; simp [List.append_assoc]
      obtain ⟨u, hu⟩ := hd
      by_cases hs : p.getLast? = some '/'
      · have e : pathPart (some p) = p := by simp only [pathPart]; rw [if_pos hs]
        rw [e] at hu
        rw [put' [] p u (by simpa using hu)]
        simp only [Res.bind_ok, List.nil_append, hs, e]
        simp
      · have e : pathPart (some p) = p ++ ['/'] := by simp only [pathPart]; rw [if_neg hs]
        rw [e] at hu
        rw [put' [] p (['/'] ++ u) (by simpa using hu)]
        simp only [Res.bind_ok, List.nil_append]
        rcases hl : p.getLast? with _ | c
        · rw [List.getLast?_eq_none_iff] at hl
          rw [hpa, hl] at hp; exact absurd rfl hp
        · rw [hl] at hs
          have hc : c ≠ '/' := fun h => hs (by rw [h])
          simp only [if_pos hc]
          rw [put' p ['/'] u hu, e]
  have hopt : ∀ (s : Str) (o : Option Str) (u : Str), s ++ opt '-' o ++ u = documented a →
      putTag (size a) s o = .ok (s ++ opt '-' o) := by
    intro s o u h
    rcases o with _ | l
    · simp [opt, putTag]
    · simp only [opt, putTag] at h ⊢
      rw [put' s ['-'] (l ++ u) (by rw [← h]; simp)]
      simp only [Res.bind_ok]
      rw [put' (s ++ ['-']) l u (by rw [← h]; simp)]
      simp
  unfold fname
  simp only [hpath, Res.bind_ok]
  rw [put' (pathPart a.path) a.base (opt '-' a.lev ++ opt '-' a.dom ++ T) (by rw [hdoc]; simp [List.append_assoc])]
  simp only [Res.bind_ok]
  rw [hopt _ a.lev (opt '-' a.dom ++ T) (by rw [hdoc]; simp [List.append_assoc])]
  simp only [Res.bind_ok]
  rw [hopt _ a.dom T hdoc.symm]
  simp only [Res.bind_ok]
  have hfin : put (size a) (pathPart a.path ++ a.base ++ opt '-' a.lev ++ opt '-' a.dom) T
      = .ok (documented a) := by
    rw [put' _ T [] (by rw [hdoc]; simp), hdoc]
  unfold putEnd
  rcases hid : a.id with _ | id
  · simp only
    by_cases h : a.dlen > 0 ∧ a.idump ≥ 0
    · rw [if_pos h, ← hfin]; congr 1; rw [hT, if_pos h, hid]; simp [opt]
    · rw [if_neg h, ← hfin]; congr 1; rw [hT, if_neg h, hid]; simp [opt]
  · simp only
    by_cases h : a.dlen > 0 ∧ a.idump ≥ 0
    · rw [if_pos h, ← hfin]; congr 1; rw [hT, if_pos h, hid]; simp [opt]
    · rw [if_neg h, ← hfin]; congr 1; rw [hT, if_neg h, hid]; simp [opt]

/-- The exception: with an empty path the function reads the byte before its buffer. -/
theorem fname_empty_path_false : ∃ a : Args, a.path = some [] ∧ fname a = .ub :=
  ⟨⟨some [], ['b'], none, none, 4, 1, none, ['t']⟩, rfl, rfl⟩

/-- The level or Domain part of a name: only numbers above zero are shown. -/
def tagOpt (tag : Str) (n : ℕ) : Option Str := if n > 0 then some (tag ++ dec n) else none

/-- What distinguishes two files: level, Domain, dump number and identifier. -/
def mk (path : Option Str) (base ext : Str) (dlen : ℤ) (l d n : ℕ) (id : Option Str) : Args :=
  ⟨path, base, tagOpt ['l', 'e', 'v'] l, tagOpt ['d', 'o', 'm'] d, dlen, n, id, ext⟩

/-- The part after the base name. -/
def tail (ext : Str) (w l d n : ℕ) (id : Option Str) : Str :=
  opt '-' (tagOpt ['l', 'e', 'v'] l) ++ opt '-' (tagOpt ['d', 'o', 'm'] d) ++ ('.' :: decPad w n) ++
    opt '.' id ++ '.' :: ext

theorem documented_mk (path : Option Str) (base ext : Str) (dlen : ℤ) (l d n : ℕ) (id : Option Str)
    (hd : dlen > 0) : documented (mk path base ext dlen l d n id)
      = pathPart path ++ (base ++ tail ext dlen.toNat l d n id) := by
  unfold documented mk tail
  simp [hd]

theorem tail_head (ext : Str) (w l d n : ℕ) (id : Option Str) :
    (tail ext w l d n id).head? = some '.' ∨ (tail ext w l d n id).head? = some '-' := by
  unfold tail tagOpt
  split_ifs <;> simp [opt]

/-- The tail determines all four. -/
theorem tail_inj {ext : Str} {w l d n l' d' n' : ℕ} {id id' : Option Str}
    (h : tail ext w l d n id = tail ext w l' d' n' id') : l = l' ∧ d = d' ∧ n = n' ∧ id = id' := by
  -- after level and Domain
  have hnum : ∀ {n n' : ℕ} {id id' : Option Str},
      ('.' :: decPad w n) ++ opt '.' id ++ '.' :: ext = ('.' :: decPad w n') ++ opt '.' id' ++ '.' :: ext →
      n = n' ∧ id = id' := by
    intro n n' id id' h
    have hr : ∀ (o : Option Str) c, (opt '.' o ++ '.' :: ext).head? = some c → c.isDigit = false := by
      intro o c hc; rcases o with _ | o <;> simp [opt] at hc <;> subst hc <;> rfl
    simp only [List.cons_append, List.cons.injEq, true_and, List.append_assoc] at h
    obtain ⟨e1, e2⟩ := digits_split (decPad_digit w n) (decPad_digit w n') (hr id) (hr id') h
    refine ⟨decPad_inj e1, ?_⟩
    have := List.append_cancel_right e2
    clear h e1 e2
    rcases id with _ | id <;> rcases id' with _ | id'
    · rfl
    · simp [opt] at this
    · simp [opt] at this
    · simp only [opt, List.cons.injEq, true_and] at this; rw [this]
  have hdig : ∀ (c : Char) (o : Str), c.isDigit = false → ∀ c', (c :: o).head? = some c' → c'.isDigit = false := by
    intro c o hc c' h; simp at h; rw [← h]; exact hc
  -- after the level
  have hdom : ∀ {d d' n n' : ℕ} {id id' : Option Str},
      opt '-' (tagOpt ['d', 'o', 'm'] d) ++ (('.' :: decPad w n) ++ opt '.' id ++ '.' :: ext)
        = opt '-' (tagOpt ['d', 'o', 'm'] d') ++ (('.' :: decPad w n') ++ opt '.' id' ++ '.' :: ext) →
      d = d' ∧ n = n' ∧ id = id' := by
    intro d d' n n' id id' h
    by_cases hd : d > 0 <;> by_cases hd' : d' > 0 <;> simp only [tagOpt, hd, hd', if_true, if_false, opt_some, opt_none] at h
    · simp only [List.cons_append, List.nil_append, List.cons.injEq, true_and] at h
      obtain ⟨e1, e2⟩ := digits_split (dec_digit d) (dec_digit d') (hdig _ _ rfl) (hdig _ _ rfl) h
      exact ⟨dec_inj e1, hnum (by simpa using e2)⟩
    · simp at h
    · simp at h
    · exact ⟨by omega, hnum (by simpa using h)⟩
  unfold tail at h
  simp only [List.append_assoc] at h
  have hdom' := @hdom d d' n n' id id'
  simp only [List.append_assoc] at hdom'
  have hh : ∀ (d n : ℕ) (id : Option Str) c, (opt '-' (tagOpt ['d', 'o', 'm'] d) ++ ('.' :: decPad w n ++
      (opt '.' id ++ '.' :: ext))).head? = some c → c.isDigit = false := by
    intro d n id c hc
    by_cases hd : d > 0 <;> simp [tagOpt, hd, opt] at hc <;> subst hc <;> rfl
  by_cases hl : l > 0 <;> by_cases hl' : l' > 0
  · rw [show tagOpt ['l', 'e', 'v'] l = _ from if_pos hl, show tagOpt ['l', 'e', 'v'] l' = _ from if_pos hl'] at h
    rw [opt_some, opt_some] at h
    simp only [List.cons_append, List.nil_append, List.cons.injEq, true_and] at h
    obtain ⟨e1, e2⟩ := digits_split (dec_digit l) (dec_digit l') (hh d n id) (hh d' n' id') h
    exact ⟨dec_inj e1, hdom' e2⟩
  · exfalso
    by_cases hd' : d' > 0 <;> simp [tagOpt, hl, hl', hd', opt] at h
  · exfalso
    by_cases hd : d > 0 <;> simp [tagOpt, hl, hl', hd, opt] at h
  · refine ⟨by omega, hdom' ?_⟩
    have e1 : opt '-' (tagOpt ['l', 'e', 'v'] l) = [] := by simp [tagOpt, hl, opt]
    have e2 : opt '-' (tagOpt ['l', 'e', 'v'] l') = [] := by simp [tagOpt, hl', opt]
    rw [e1, e2] at h
    exact h

/-- C45: in the same directory, with the same base name and extension, different levels, Domains, dump
numbers or identifiers give different names. -/
theorem fname_differ (path : Option Str) (base ext : Str) (dlen : ℤ) (l d n l' d' n' : ℕ)
    (id id' : Option Str) (hd : dlen > 0) (hp : path ≠ some []) (hn : n ≤ 2147483647)
    (hn' : n' ≤ 2147483647)
    (h : fname (mk path base ext dlen l d n id) = fname (mk path base ext dlen l' d' n' id')) :
    l = l' ∧ d = d' ∧ n = n' ∧ id = id' := by
  rw [(fname_documented _ hp (by simpa [mk] using hn)).1, (fname_documented _ hp (by simpa [mk] using hn')).1,
    Res.ok.injEq, documented_mk _ _ _ _ _ _ _ _ hd, documented_mk _ _ _ _ _ _ _ _ hd] at h
  exact tail_inj (List.append_cancel_left (List.append_cancel_left h))

/-- If a string is found again after a non-empty prefix, what follows it starts with a character of the
prefix. -/
theorem periodic (p y : Str) (hp : p ≠ []) : ∀ (k : ℕ) (B x : Str), B.length ≤ k → B ++ x = p ++ (B ++ y) →
    ∃ c, x.head? = some c ∧ c ∈ p := by
  intro k
  induction k with
  | zero =>
    intro B x hB h
    obtain rfl : B = [] := List.length_eq_zero_iff.mp (by omega)
    obtain ⟨c, p', rfl⟩ := List.exists_cons_of_ne_nil hp
    simp at h; exact ⟨c, by rw [h]; rfl, List.mem_cons_self ..⟩
  | succ k ih =>
    intro B x hB h
    rcases List.append_eq_append_iff.mp h with ⟨q, rfl, h2⟩ | ⟨q, rfl, h2⟩
    · cases q with
      | nil =>
        -- B = p
        simp only [List.append_nil, List.nil_append] at *
        have hpos : 0 < B.length := List.length_pos_iff.mpr hp
        obtain ⟨c, B', rfl⟩ := List.exists_cons_of_ne_nil hp
        exact ⟨c, by rw [h2]; rfl, List.mem_cons_self ..⟩
      | cons c q => exact ⟨c, by rw [h2]; rfl, by simp⟩
    · have hpos : 0 < p.length := List.length_pos_iff.mpr hp
      refine ih q x (by rw [List.length_append] at hB; omega) ?_
      rw [← h2, List.append_assoc]

/-- C45 as the dumps use it, with the level's name also as directory: different levels, Domains and dump
numbers give different paths. -/
theorem dump_name_differ (base ext : Str) (dlen : ℤ) (l d n l' d' n' : ℕ)
    (id id' : Option Str) (hd : dlen > 0) (hn : n ≤ 2147483647) (hn' : n' ≤ 2147483647)
    (h : fname (mk (tagOpt ['l', 'e', 'v'] l) base ext dlen l d n id)
      = fname (mk (tagOpt ['l', 'e', 'v'] l') base ext dlen l' d' n' id')) :
    l = l' ∧ d = d' ∧ n = n' ∧ id = id' := by
  have hne : ∀ l, tagOpt ['l', 'e', 'v'] l ≠ some [] := by
    intro l; unfold tagOpt; split_ifs <;> simp
  rw [(fname_documented _ (hne l) (by simpa [mk] using hn)).1,
    (fname_documented _ (hne l') (by simpa [mk] using hn')).1,
    Res.ok.injEq, documented_mk _ _ _ _ _ _ _ _ hd, documented_mk _ _ _ _ _ _ _ _ hd] at h
  have hpp : ∀ l, l > 0 → pathPart (tagOpt ['l', 'e', 'v'] l) = ['l', 'e', 'v'] ++ (dec l ++ ['/']) := by
    intro l hl
    have hg : (['l', 'e', 'v'] ++ dec l).getLast? ≠ some '/' := by
      intro hg
      have hm := List.mem_of_getLast? hg
      rcases List.mem_append.mp hm with hm | hm
      · simp at hm
      · have := dec_digit l '/' hm; simp at this
    unfold tagOpt; rw [if_pos hl]; simp only [pathPart]; rw [if_neg hg]; simp
  have hmem : ∀ l c, c ∈ ['l', 'e', 'v'] ++ (dec l ++ ['/']) → c ≠ '.' ∧ c ≠ '-' := by
    intro l c hc
    simp only [List.cons_append, List.nil_append, List.mem_cons, List.mem_append, List.not_mem_nil,
      or_false] at hc
    rcases hc with rfl | rfl | rfl | hc | rfl
    · decide
    · decide
    · decide
    · have := dec_digit l c hc
      constructor
      · rintro rfl; simp at this
      · rintro rfl; simp at this
    · decide
  have contra : ∀ (l : ℕ) (x y : Str), (x.head? = some '.' ∨ x.head? = some '-') →
      base ++ x = ['l', 'e', 'v'] ++ (dec l ++ ['/']) ++ (base ++ y) → False := by
    intro l x y hx he
    obtain ⟨c, hc, hcm⟩ := periodic _ y (by simp) _ base x le_rfl he
    have := hmem l c hcm
    rcases hx with hx | hx <;> rw [hx] at hc <;> cases hc <;> simp at this
  by_cases hl : l > 0 <;> by_cases hl' : l' > 0
  · rw [hpp l hl, hpp l' hl'] at h
    have h1 : dec l ++ ('/' :: (base ++ tail ext dlen.toNat l d n id))
        = dec l' ++ ('/' :: (base ++ tail ext dlen.toNat l' d' n' id')) := by simpa using h
    have hdig : ∀ (o : Str), ∀ c', ('/' :: o).head? = some c' → c'.isDigit = false := by
      intro o c' h; simp at h; rw [← h]; rfl
    obtain ⟨-, e2⟩ := digits_split (dec_digit l) (dec_digit l') (hdig _) (hdig _) h1
    simp only [List.cons.injEq, true_and] at e2
    exact tail_inj (List.append_cancel_left e2)
  · exfalso
    rw [hpp l hl] at h
    have e : pathPart (tagOpt ['l', 'e', 'v'] l') = [] := by simp [tagOpt, hl', pathPart]
    rw [e, List.nil_append] at h
    exact contra l _ _ (tail_head ..) h.symm
  · exfalso
    rw [hpp l' hl'] at h
    have e : pathPart (tagOpt ['l', 'e', 'v'] l) = [] := by simp [tagOpt, hl, pathPart]
    rw [e, List.nil_append] at h
    exact contra l' _ _ (tail_head ..) h
  · have e1 : pathPart (tagOpt ['l', 'e', 'v'] l) = [] := by simp [tagOpt, hl, pathPart]
    have e2 : pathPart (tagOpt ['l', 'e', 'v'] l') = [] := by simp [tagOpt, hl', pathPart]
    rw [e1, e2] at h
    exact tail_inj (List.append_cancel_left h)

/-! A concrete name. -/
example : fname (mk (tagOpt ['l', 'e', 'v'] 1) ['S', 'o', 'd'] ['v', 't', 'k'] 4 1 0 7 none)
    = .ok "lev1/Sod-lev1.0007.vtk".toList := by decide

end Athena.Fname
