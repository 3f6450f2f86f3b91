import Verif.Par.Model
import Mathlib.Data.List.Nodup
import Mathlib.Data.List.Basic

/-! Lemmas on the list operations of the parameter database. -/

namespace Athena.Par

theorem blockIndex_none {db : DB} {B : Str} : blockIndex db B = none ↔ ∀ b ∈ db, b.name ≠ B := by
  induction db with
  | nil => simp [blockIndex]
  | cons b db ih =>
    simp only [blockIndex]
    by_cases h : b.name = B
    · simp [h]
    · simp [h, ih]

theorem findBlock_none {db : DB} {B : Str} : findBlock db B = none ↔ ∀ b ∈ db, b.name ≠ B := by
  simp [findBlock]

theorem findBlock_modify {f : Block → Block} (hf : ∀ b, (f b).name = b.name) (B b : Str) :
    ∀ (db : DB) (i : Nat), blockIndex db B = some i →
      findBlock (db.modify i f) b = if b = B then (findBlock db B).map f else findBlock db b := by
  intro db
  induction db with
  | nil => intro i h; simp [blockIndex] at h
  | cons x db ih =>
    intro i h
    simp only [blockIndex] at h
    by_cases hx : x.name = B
    · rw [if_pos hx] at h
      obtain rfl : 0 = i := by simpa using h
      subst hx
      simp only [List.modify_zero_cons, findBlock, List.find?_cons, hf]
      by_cases hb : x.name = b
      · simp [hb]
      · simp [hb, Ne.symm hb]
    · rw [if_neg hx] at h
      obtain ⟨j, hj, rfl⟩ := Option.map_eq_some_iff.1 h
      have := ih j hj
      simp only [findBlock] at this
      simp only [List.modify_succ_cons, findBlock, List.find?_cons, hx, decide_false]
      by_cases hb : x.name = b
      · have : b ≠ B := by rintro rfl; exact hx hb
        simp [hb, this]
      · simp only [hb, decide_false]; exact this

theorem blockIndex_append {db : DB} {B : Str} (x : Block) (h : blockIndex db B = none) (hx : x.name = B) :
    blockIndex (db ++ [x]) B = some db.length := by
  induction db with
  | nil => simp [blockIndex, hx]
  | cons b db ih =>
    simp only [blockIndex] at h
    split_ifs at h with hb
    have h' : blockIndex db B = none := by
      cases hh : blockIndex db B with
      | none => rfl
      | some j => rw [hh] at h; simp at h
    simp only [List.cons_append, blockIndex, if_neg hb, ih h']
    rfl

/-- The block `B`, or the empty block created for it. -/
def blockOrNew (db : DB) (B : Str) : Block := (findBlock db B).getD ⟨B, [], 0, 0⟩

theorem addBlock_spec (db : DB) (B b : Str) :
    blockIndex (addBlock db B).1 B = some (addBlock db B).2 ∧
    findBlock (addBlock db B).1 b = if b = B then some (blockOrNew db B) else findBlock db b := by
  unfold addBlock
  cases h : blockIndex db B with
  | some i =>
    refine ⟨h, ?_⟩
    by_cases hb : b = B
    · subst hb
      simp only [if_true, blockOrNew]
      cases hf : findBlock db b with
      | none =>
        rw [findBlock_none, ← blockIndex_none] at hf
        rw [hf] at h; simp at h
      | some x => simp
    · simp [hb]
  | none =>
    refine ⟨blockIndex_append _ h rfl, ?_⟩
    have hn : findBlock db B = none := by rw [findBlock_none, ← blockIndex_none]; exact h
    have hn' : db.find? (fun b => decide (b.name = B)) = none := hn
    simp only [findBlock, List.find?_append, blockOrNew, Option.getD]
    by_cases hb : b = B
    · subst hb
      rw [hn']; simp
    · simp [hb, Ne.symm hb]

theorem addPar_name (bp : Block) (n v : Str) (c : Option Str) : (addPar bp n v c).name = bp.name := rfl

theorem findBlock_sets (db : DB) (B N v : Str) (c : Option Str) (b : Str) :
    findBlock (parSets db B N v c) b =
      if b = B then some (addPar (blockOrNew db B) N v c) else findBlock db b := by
  unfold parSets
  dsimp only
  rw [findBlock_modify (f := (addPar · N v c)) (fun _ => rfl) B b _ _ (addBlock_spec db B b).1,
    (addBlock_spec db B B).2, (addBlock_spec db B b).2]
  by_cases hb : b = B <;> simp [hb]

theorem find_addParList (ps : List Par) (N v n : Str) (c : Option Str) :
    (addParList ps N v c).find? (fun p => decide (p.name = n)) =
      if n = N then some ⟨N, v, match c with
        | none => ((ps.find? (fun p => decide (p.name = N))).bind (·.comment)) | some c => some c⟩
      else ps.find? (fun p => decide (p.name = n)) := by
  induction ps with
  | nil =>
    by_cases h : n = N
    · subst h; cases c <;> simp [addParList]
    · simp [addParList, h, Ne.symm h]
  | cons p ps ih =>
    simp only [addParList]
    by_cases hp : p.name = N
    · simp only [hp, if_true, List.find?_cons]
      by_cases h : n = N
      · subst h; cases c <;> simp
      · simp [h, Ne.symm h]
    · simp only [hp, if_false, List.find?_cons, decide_false]
      by_cases hn : p.name = n
      · have : n ≠ N := by rintro rfl; exact hp hn
        simp [hn, this]
      · simp only [hn, decide_false, ih]

/-- What a read of `(b, n)` finds. -/
def lookup (db : DB) (b n : Str) : Option Par := (findBlock db b).bind (fun bp => findPar bp n)

theorem lookup_blockOrNew (db : DB) (B n : Str) : findPar (blockOrNew db B) n = lookup db B n := by
  unfold blockOrNew lookup
  cases findBlock db B with
  | none => simp [findPar]
  | some x => simp

theorem lookup_sets (db : DB) (B N v : Str) (c : Option Str) (b n : Str) :
    lookup (parSets db B N v c) b n =
      if b = B ∧ n = N then some ⟨N, v, match c with
        | none => (lookup db B N).bind (·.comment) | some c => some c⟩
      else lookup db b n := by
  by_cases hb : b = B
  · subst hb
    unfold lookup
    rw [findBlock_sets, if_pos rfl]
    have := find_addParList (blockOrNew db b).pars N v n c
    have hl := lookup_blockOrNew db b
    simp only [findPar] at hl
    simp only [Option.bind_some, findPar, addPar, this, hl]
    by_cases hn : n = N
    · simp [hn]; rfl
    · simp [hn]; rfl
  · unfold lookup
    rw [findBlock_sets, if_neg hb]
    simp [hb]

theorem parGets_eq (db : DB) (b n : Str) :
    parGets db b n = match lookup db b n with | some p => .ok p.value | none => .fatal := by
  unfold parGets lookup
  cases findBlock db b with
  | none => rfl
  | some bp => simp only [Option.bind_some]; cases findPar bp n <;> rfl

theorem parExist_eq (db : DB) (b n : Str) : parExist db b n = (lookup db b n).isSome := by
  unfold parExist lookup
  cases findBlock db b with
  | none => rfl
  | some bp => rfl

/-! ### Uniqueness of names -/

/-- No two blocks with the same name, no two parameters of a block with the same name. -/
def Unique (db : DB) : Prop :=
  (db.map (·.name)).Nodup ∧ ∀ bp ∈ db, (bp.pars.map (·.name)).Nodup

theorem addParList_names (ps : List Par) (n v : Str) (c : Option Str) :
    (addParList ps n v c).map (·.name) =
      if n ∈ ps.map (·.name) then ps.map (·.name) else ps.map (·.name) ++ [n] := by
  induction ps with
  | nil => simp [addParList]
  | cons p ps ih =>
    simp only [addParList]
    by_cases h : p.name = n
    · simp [h]
    · rw [if_neg h, List.map_cons, ih]
      simp only [List.map_cons, List.mem_cons]
      by_cases h2 : n ∈ ps.map (·.name)
      · simp [h2]
      · rw [if_neg h2, if_neg (by rintro (h3 | h3); exact h h3.symm; exact h2 h3)]; rfl

theorem nodup_snoc {α : Type*} {l : List α} {a : α} (h : l.Nodup) (ha : a ∉ l) : (l ++ [a]).Nodup := by
  rw [List.nodup_append]
  refine ⟨h, List.nodup_singleton _, ?_⟩
  intro x hx y hy
  rw [List.mem_singleton] at hy; subst hy
  rintro rfl; exact ha hx

theorem unique_addBlock {db : DB} (h : Unique db) (B : Str) : Unique (addBlock db B).1 := by
  unfold addBlock
  cases hi : blockIndex db B with
  | some i => exact h
  | none =>
    constructor
    · rw [List.map_append]
      apply nodup_snoc h.1
      intro hm
      obtain ⟨b, hb, e⟩ := List.mem_map.1 hm
      exact blockIndex_none.1 hi b hb e
    · intro bp hbp
      rcases List.mem_append.1 hbp with hbp | hbp
      · exact h.2 bp hbp
      · rw [List.mem_singleton] at hbp; subst hbp; simp

theorem map_name_modify {f : Block → Block} (hf : ∀ b, (f b).name = b.name) (db : DB) (i : Nat) :
    (db.modify i f).map (·.name) = db.map (·.name) := by
  induction db generalizing i with
  | nil => simp
  | cons b db ih =>
    cases i with
    | zero => simp [hf]
    | succ i => simp [ih]

theorem mem_modify {f : Block → Block} {db : DB} {i : Nat} {x : Block} (h : x ∈ db.modify i f) :
    x ∈ db ∨ ∃ y ∈ db, x = f y := by
  induction db generalizing i with
  | nil => simp at h
  | cons b db ih =>
    cases i with
    | zero =>
      rw [List.modify_zero_cons, List.mem_cons] at h
      rcases h with h | h
      · exact .inr ⟨b, by simp, h⟩
      · exact .inl (by simp [h])
    | succ i =>
      rw [List.modify_succ_cons, List.mem_cons] at h
      rcases h with h | h
      · exact .inl (by simp [h])
      · rcases ih h with h | ⟨y, hy, e⟩
        · exact .inl (by simp [h])
        · exact .inr ⟨y, by simp [hy], e⟩

theorem unique_modify {f : Block → Block} (hf : ∀ b, (f b).name = b.name)
    (hn : ∀ b, (b.pars.map (·.name)).Nodup → ((f b).pars.map (·.name)).Nodup)
    {db : DB} (h : Unique db) (i : Nat) : Unique (db.modify i f) := by
  constructor
  · rw [map_name_modify hf]; exact h.1
  · intro bp hbp
    rcases mem_modify hbp with hb | ⟨y, hy, rfl⟩
    · exact h.2 bp hb
    · exact hn y (h.2 y hy)

theorem addPar_nodup (n v : Str) (c : Option Str) (b : Block) (h : (b.pars.map (·.name)).Nodup) :
    ((addPar b n v c).pars.map (·.name)).Nodup := by
  have := addParList_names b.pars n v c
  simp only [addPar]
  rw [this]
  split_ifs with hm
  · exact h
  · exact nodup_snoc h hm

theorem unique_addPar {db : DB} (h : Unique db) (i : Nat) (n v : Str) (c : Option Str) :
    Unique (db.modify i (addPar · n v c)) :=
  unique_modify (f := (addPar · n v c)) (fun _ => rfl) (addPar_nodup n v c) h i

theorem unique_sets {db : DB} (h : Unique db) (B N v : Str) (c : Option Str) :
    Unique (parSets db B N v c) := unique_addPar (unique_addBlock h B) _ N v c

theorem setValue_names (ps : List Par) (n v : Str) :
    (setValue ps n v).map (fun p => (p.name, p.comment)) = ps.map (fun p => (p.name, p.comment)) := by
  induction ps with
  | nil => rfl
  | cons p ps ih =>
    simp only [setValue]
    split_ifs with h
    · rfl
    · rw [List.map_cons, ih]; rfl

theorem find_setValue (ps : List Par) (N v n : Str) :
    (setValue ps N v).find? (fun p => decide (p.name = n)) =
      if n = N then (ps.find? (fun p => decide (p.name = N))).map (fun p => { p with value := v })
      else ps.find? (fun p => decide (p.name = n)) := by
  induction ps with
  | nil => simp [setValue]
  | cons p ps ih =>
    simp only [setValue]
    by_cases hp : p.name = N
    · by_cases h : n = N
      · subst h; simp [hp]
      · have h' : ¬ N = n := fun e => h e.symm
        simp [hp, h, h']
    · by_cases hn : p.name = n
      · have : n ≠ N := by rintro rfl; exact hp hn
        simp [hp, hn, this]
      · simp only [hp, if_false, List.find?_cons, hn, decide_false, ih]

theorem unique_openLines (ls : List Str) : ∀ (db : DB) (bp : Option Nat) (db' : DB),
    Unique db → openLines ls db bp = .ok db' → Unique db' := by
  induction ls with
  | nil => intro db bp db' h e; simp only [openLines, Res.ok.injEq] at e; subst e; exact h
  | cons l ls ih =>
    intro db bp db' h e
    simp only [openLines] at e
    split at e
    · simp at e
    · split_ifs at e with h1 h2 h3 h4
      · exact ih _ _ _ h e
      · exact ih _ _ _ h e
      · simp only [Res.ok.injEq] at e; subst e; exact h
      · cases hn : lineBlockName (l ++ [NUL]) (skipWhite (l ++ [NUL]) 0) with
        | ok nm => rw [hn] at e; exact ih _ _ _ (unique_addBlock h nm) e
        | fatal => rw [hn] at e; simp at e
        | ub => rw [hn] at e; simp at e
      · cases bp with
        | none => simp at e
        | some i =>
          dsimp only at e
          cases hn : parseLine (l ++ [NUL]) (skipWhite (l ++ [NUL]) 0) with
          | ok nm => rw [hn] at e; exact ih _ _ _ (unique_addPar h i _ _ _) e
          | fatal => rw [hn] at e; simp at e
          | ub => rw [hn] at e; simp at e

end Athena.Par
