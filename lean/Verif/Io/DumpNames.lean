import Verif.Io.Fname
import Mathlib.Data.List.Nodup

/-!
# The loops over Domains of the dump and output functions, as far as they choose file names; C56

`dump_binary`, `dump_tab_cons`, `dump_tab_prim`, `dump_vtk`, `output_pgm`, `output_ppm` share the loop modelled
by `dumpNames` (the variables `plev`, `pdom` are initialised once, before the loops); `output_tab` and `output_vtk`
call a function per Domain that initialises them (`outputNames`).
-/

namespace Athena.Fname

/-- The members of `OutputS` that matter: `id`, `num`, `nlevel`, `ndomain` (-1: all). -/
structure Out where
  id : Str
  num : ℕ
  nlevel : ℤ
  ndomain : ℤ

/-- The Domains written by this process, in order: `for (nl…) for (nd…) if (Grid != NULL) if (nlevel and ndomain
match)`, src/dump_vtk.c:46-53, src/dump_tab.c:62-69, src/output_pgm.c:38-47.  `dpl` is
`DomainsPerLevel`, `grid nl nd` tells whether this process has a Grid in the Domain. -/
def visited (dpl : List ℕ) (grid : ℕ → ℕ → Bool) (o : Out) : List (ℕ × ℕ) :=
  (dpl.zipIdx).flatMap fun (n, nl) =>
    ((List.range n).filter fun nd => grid nl nd ∧ (o.nlevel = -1 ∨ o.nlevel = nl) ∧
      (o.ndomain = -1 ∨ o.ndomain = nd)).map fun nd => (nl, nd)

/-- `if (n>0) { p = &str[0]; sprintf(p,"lev%d",n); }`, e.g. src/dump_vtk.c:93-100. -/
def setTag (tag : Str) (n : ℕ) (old : Option Str) : Res (Option Str) :=
  if n > 0 then do let s ← tagged tag n; return some s else return old

/-- The names used by a dump function, src/dump_vtk.c:92-103, src/dump_binary.c:92-103,
src/dump_tab.c:71-83, :321-333.  `plev`, `pdom` are the variables' values when the loop body starts;
`id` is NULL; `num_digit` is 4 (src/defs.h.in:136). -/
def dumpNames (base ext : Str) (num : ℕ) : Option Str → Option Str → List (ℕ × ℕ) → Res (List Str)
  | _, _, [] => .ok []
  | plev, pdom, (nl, nd) :: rest => do
    let plev ← setTag ['l', 'e', 'v'] nl plev
    let pdom ← setTag ['d', 'o', 'm'] nd pdom
    let f ← fname ⟨plev, base, plev, pdom, 4, num, none, ext⟩
    let fs ← dumpNames base ext num plev pdom rest
    return f :: fs

/-- A dump by one process: initial values `plev=NULL, pdom=NULL`. -/
def dump (base ext : Str) (dpl : List ℕ) (grid : ℕ → ℕ → Bool) (o : Out) : Res (List Str) :=
  dumpNames base ext o.num none none (visited dpl grid o)

/-- The names used by `output_tab`, `output_vtk` (src/output_tab.c:98-111, 164-177, 236-249,
src/output_vtk.c:90-103, 199-212): `plev`, `pdom` start as NULL for every Domain, and the id is used. -/
def outputNames (base ext : Str) (o : Out) : List (ℕ × ℕ) → Res (List Str)
  | [] => .ok []
  | (nl, nd) :: rest => do
    let plev ← setTag ['l', 'e', 'v'] nl none
    let pdom ← setTag ['d', 'o', 'm'] nd none
    let f ← fname ⟨plev, base, plev, pdom, 4, o.num, some o.id, ext⟩
    let fs ← outputNames base ext o rest
    return f :: fs

/-- An output by one process. -/
def output (base ext : Str) (dpl : List ℕ) (grid : ℕ → ℕ → Bool) (o : Out) : Res (List Str) :=
  outputNames base ext o (visited dpl grid o)

/-! ## Lemmas -/

theorem mem_visited {dpl : List ℕ} {grid : ℕ → ℕ → Bool} {o : Out} {p : ℕ × ℕ} (h : p ∈ visited dpl grid o) :
    ∃ n, dpl[p.1]? = some n ∧ p.2 < n := by
  simp only [visited, List.mem_flatMap, List.mem_map, List.mem_filter, List.mem_range] at h
  obtain ⟨⟨n, nl⟩, h1, nd, ⟨h2, -⟩, rfl⟩ := h
  exact ⟨n, (List.mem_zipIdx_iff_getElem?.mp h1), h2⟩

theorem visited_nodup (dpl : List ℕ) (grid : ℕ → ℕ → Bool) (o : Out) : (visited dpl grid o).Nodup := by
  unfold visited
  rw [List.nodup_flatMap]
  constructor
  · rintro ⟨n, nl⟩ -
    refine List.Nodup.map ?_ (List.Nodup.filter _ List.nodup_range)
    intro a b h; simpa using h
  · have : (dpl.zipIdx).Pairwise fun a b => a.2 ≠ b.2 := by
      have h := List.nodup_range' (s := 0) (n := dpl.length) (step := 1)
      rw [← List.zipIdx_map_snd, List.nodup_iff_pairwise_ne, List.pairwise_map] at h
      exact h
    refine this.imp ?_
    rintro ⟨n, nl⟩ ⟨n', nl'⟩ hne
    rw [Function.onFun, List.disjoint_left]
    intro p hp hp'
    simp only [List.mem_map] at hp hp'
    obtain ⟨a, -, rfl⟩ := hp
    obtain ⟨b, -, e⟩ := hp'
    exact hne (by simpa using (congrArg Prod.fst e).symm)

theorem dec_length_le {n : ℕ} (h : n ≤ 9999) : (dec n).length ≤ 4 :=
  (Nat.length_toDigits_le_iff (by decide) (by decide)).mpr (by omega)

theorem setTag_ok (tag : Str) (n : ℕ) (old : Option Str) (ht : tag.length = 3) (hn : n ≤ 9999) :
    setTag tag n old = .ok (if n > 0 then some (tag ++ dec n) else old) := by
  unfold setTag
  by_cases h : n > 0
  · have := dec_length_le hn
    rw [if_pos h, if_pos h, tagged, if_pos (by rw [List.length_append]; omega)]
    rfl
  · rw [if_neg h, if_neg h]; rfl

/-- The right name of a Domain's file. -/
def properName (base ext : Str) (num : ℕ) (id : Option Str) (p : ℕ × ℕ) : Str :=
  documented (mk (tagOpt ['l', 'e', 'v'] p.1) base ext 4 p.1 p.2 num id)

theorem tagOpt_ne (l : ℕ) : tagOpt ['l', 'e', 'v'] l ≠ some [] := by
  unfold tagOpt; split_ifs <;> simp

theorem fname_proper (base ext : Str) (num : ℕ) (id : Option Str) (p : ℕ × ℕ) (hn : num ≤ 2147483647) :
    fname (mk (tagOpt ['l', 'e', 'v'] p.1) base ext 4 p.1 p.2 num id) = .ok (properName base ext num id p) :=
  (fname_documented _ (tagOpt_ne _) (by simpa [mk] using hn)).1

theorem properName_inj {base ext : Str} {num : ℕ} {id : Option Str} (hn : num ≤ 2147483647) {p q : ℕ × ℕ}
    (h : properName base ext num id p = properName base ext num id q) : p = q := by
  have h' : fname (mk (tagOpt ['l', 'e', 'v'] p.1) base ext 4 p.1 p.2 num id)
      = fname (mk (tagOpt ['l', 'e', 'v'] q.1) base ext 4 q.1 q.2 num id) := by
    rw [fname_proper _ _ _ _ _ hn, fname_proper _ _ _ _ _ hn, h]
  obtain ⟨e1, e2, -, -⟩ := dump_name_differ base ext 4 _ _ _ _ _ _ id id (by decide) hn hn h'
  exact Prod.ext e1 e2

/-- Levels come in order. -/
theorem visited_levels (dpl : List ℕ) (grid : ℕ → ℕ → Bool) (o : Out) :
    (visited dpl grid o).Pairwise fun p q => p.1 ≤ q.1 := by
  unfold visited
  rw [List.pairwise_flatMap]
  constructor
  · rintro ⟨n, nl⟩ -
    rw [List.pairwise_map]
    exact List.pairwise_of_forall (fun _ _ => le_rfl)
  · have : (dpl.zipIdx).Pairwise fun a b => a.2 < b.2 := by
      have h := List.pairwise_lt_range' (s := 0) (n := dpl.length) (step := 1) (by decide)
      rw [← List.zipIdx_map_snd, List.pairwise_map] at h
      exact h
    refine this.imp ?_
    rintro ⟨n, nl⟩ ⟨n', nl'⟩ hlt p hp q hq
    simp only [List.mem_map] at hp hq
    obtain ⟨a, -, rfl⟩ := hp
    obtain ⟨b, -, rfl⟩ := hq
    exact le_of_lt hlt

/-! ## C56 -/

/-- C56: the Domains for which a file is written are exactly those that exist, that the user selected by level and
number (-1: all) and in which this process has a Grid. -/
theorem visited_iff (dpl : List ℕ) (grid : ℕ → ℕ → Bool) (o : Out) (nl nd : ℕ) :
    (nl, nd) ∈ visited dpl grid o ↔
      (∃ n, dpl[nl]? = some n ∧ nd < n) ∧ grid nl nd = true ∧
      (o.nlevel = -1 ∨ o.nlevel = nl) ∧ (o.ndomain = -1 ∨ o.ndomain = nd) := by
  simp only [visited, List.mem_flatMap, List.mem_map, List.mem_filter, List.mem_range, decide_eq_true_eq]
  constructor
  · rintro ⟨⟨n, l⟩, h1, d, ⟨h2, h3, h4⟩, e⟩
    obtain ⟨rfl, rfl⟩ := Prod.mk.inj e
    exact ⟨⟨n, List.mem_zipIdx_iff_getElem?.mp h1, h2⟩, h3, h4⟩
  · rintro ⟨⟨n, h1, h2⟩, h3, h4⟩
    exact ⟨(n, nl), List.mem_zipIdx_iff_getElem?.mpr h1, nd, ⟨h2, h3, h4⟩, rfl⟩
example : (2, 1) ∈ visited [1, 1, 2] (fun _ _ => true) ⟨[], 7, 2, 1⟩ ∧
    (2, 0) ∉ visited [1, 1, 2] (fun _ _ => true) ⟨[], 7, 2, 1⟩ := by decide

/-- C56 for `output_tab` and `output_vtk`: every Domain gets the documented name of its level, Domain, dump
number and identifier. -/
theorem output_own_file (base ext : Str) (dpl : List ℕ) (grid : ℕ → ℕ → Bool) (o : Out)
    (hl : dpl.length ≤ 10000) (hd : ∀ n ∈ dpl, n ≤ 10000) (hn : o.num ≤ 2147483647) :
    output base ext dpl grid o = .ok ((visited dpl grid o).map (properName base ext o.num (some o.id))) ∧
    ((visited dpl grid o).map (properName base ext o.num (some o.id))).Nodup := by
  constructor
  · unfold output
    have hv : ∀ p ∈ visited dpl grid o, p.1 ≤ 9999 ∧ p.2 ≤ 9999 := by
      intro p hp
      obtain ⟨n, h1, h2⟩ := mem_visited hp
      have := hd n (List.mem_of_getElem? h1)
      obtain ⟨h3, -⟩ := List.getElem?_eq_some_iff.mp h1
      omega
    generalize visited dpl grid o = v at hv
    induction v with
    | nil => rfl
    | cons p v ih =>
      obtain ⟨nl, nd⟩ := p
      have hp := hv _ (List.mem_cons_self ..)
      simp only [outputNames, setTag_ok ['l', 'e', 'v'] nl none rfl hp.1, setTag_ok ['d', 'o', 'm'] nd none rfl hp.2, Res.bind_ok]
      have := fname_proper base ext o.num (some o.id) (nl, nd) hn
      simp only [mk, tagOpt] at this
      rw [this]
      simp only [Res.bind_ok]
      rw [ih (fun q hq => hv q (List.mem_cons_of_mem _ hq))]
      rfl
  · exact List.Nodup.map (fun p q h => properName_inj hn h) (visited_nodup dpl grid o)

/-- C56 for the dump functions, under the condition that the code needs: once a Domain with a number above 0
has been written, no Domain 0 follows (for example: at most one Domain on every level but the last, or one
Domain selected by number, or at most one Domain per process). -/
theorem dump_own_file_partial (base ext : Str) (dpl : List ℕ) (grid : ℕ → ℕ → Bool) (o : Out)
    (hl : dpl.length ≤ 10000) (hd : ∀ n ∈ dpl, n ≤ 10000) (hn : o.num ≤ 2147483647)
    (hz : (visited dpl grid o).Pairwise fun p q => p.2 > 0 → q.2 > 0) :
    dump base ext dpl grid o = .ok ((visited dpl grid o).map (properName base ext o.num none)) ∧
    ((visited dpl grid o).map (properName base ext o.num none)).Nodup := by
  constructor
  · unfold dump
    have hv : ∀ p ∈ visited dpl grid o, p.1 ≤ 9999 ∧ p.2 ≤ 9999 := by
      intro p hp
      obtain ⟨n, h1, h2⟩ := mem_visited hp
      have := hd n (List.mem_of_getElem? h1)
      obtain ⟨h3, -⟩ := List.getElem?_eq_some_iff.mp h1
      omega
    have hlev := visited_levels dpl grid o
    generalize visited dpl grid o = v at hv hz hlev
    -- the variables may be stale, but only while the next level or Domain is above 0
    suffices H : ∀ v (plev pdom : Option Str), (∀ p ∈ v, p.1 ≤ 9999 ∧ p.2 ≤ 9999) →
        v.Pairwise (fun p q => p.2 > 0 → q.2 > 0) → v.Pairwise (fun p q => p.1 ≤ q.1) →
        (plev = none ∨ ∀ p ∈ v, p.1 > 0) → (pdom = none ∨ ∀ p ∈ v, p.2 > 0) →
        dumpNames base ext o.num plev pdom v = .ok (v.map (properName base ext o.num none)) from
      H v none none hv hz hlev (Or.inl rfl) (Or.inl rfl)
    clear hlev hz hv v
    intro v
    induction v with
    | nil => intros; rfl
    | cons p v ih =>
      intro plev pdom hv hz hlev h1 h2
      obtain ⟨nl, nd⟩ := p
      have hp := hv _ (List.mem_cons_self ..)
      rw [List.pairwise_cons] at hz hlev
      have e1 : (if nl > 0 then some (['l', 'e', 'v'] ++ dec nl) else plev) = tagOpt ['l', 'e', 'v'] nl := by
        unfold tagOpt
        by_cases h : nl > 0
        · rw [if_pos h, if_pos h]
        · rw [if_neg h, if_neg h]
          exact h1.resolve_right fun g => h (g _ (List.mem_cons_self ..))
      have e2 : (if nd > 0 then some (['d', 'o', 'm'] ++ dec nd) else pdom) = tagOpt ['d', 'o', 'm'] nd := by
        unfold tagOpt
        by_cases h : nd > 0
        · rw [if_pos h, if_pos h]
        · rw [if_neg h, if_neg h]
          exact h2.resolve_right fun g => h (g _ (List.mem_cons_self ..))
      simp only [dumpNames, setTag_ok ['l', 'e', 'v'] nl plev rfl hp.1, setTag_ok ['d', 'o', 'm'] nd pdom rfl hp.2, Res.bind_ok, e1, e2]
      have := fname_proper base ext o.num none (nl, nd) hn
      simp only [mk] at this
      rw [this]
      simp only [Res.bind_ok]
      rw [ih _ _ (fun q hq => hv q (List.mem_cons_of_mem _ hq)) hz.2 hlev.2]
      · rfl
      · by_cases h : nl > 0
        · exact Or.inr fun q hq => lt_of_lt_of_le h (hlev.1 q hq)
        · left; unfold tagOpt; rw [if_neg h]
      · by_cases h : nd > 0
        · exact Or.inr fun q hq => hz.1 q hq h
        · left; unfold tagOpt; rw [if_neg h]
  · exact List.Nodup.map (fun p q h => properName_inj hn h) (visited_nodup dpl grid o)

/-- Without the condition C56 is false for the dump functions.  A serial run with one root Domain and two
Domains on each of levels 1 and 2: the file of Domain 0 of level 2 gets the name of Domain 1 of that level (the
pointer `pdom` set for level 1 is still in force), and is then overwritten. -/
theorem dump_own_file_false : ∃ (base ext : Str) (dpl : List ℕ) (grid : ℕ → ℕ → Bool) (o : Out)
    (names : List Str), dpl.length ≤ 10000 ∧ (∀ n ∈ dpl, n ≤ 10000) ∧ o.num ≤ 2147483647 ∧
    dump base ext dpl grid o = .ok names ∧ ¬ names.Nodup :=
  ⟨['S'], ['v', 't', 'k'], [1, 2, 2], fun _ _ => true, ⟨[], 7, -1, -1⟩,
    ["S.0007.vtk".toList, "lev1/S-lev1.0007.vtk".toList, "lev1/S-lev1-dom1.0007.vtk".toList,
      "lev2/S-lev2-dom1.0007.vtk".toList, "lev2/S-lev2-dom1.0007.vtk".toList],
    by decide, by decide, by decide, by decide, by decide⟩

/-- Dumps do not use the identifier: two outputs of the same format (for example conserved and primitive
variables as vtk) write to the same files. -/
theorem two_dumps_false : ∃ (base ext : Str) (dpl : List ℕ) (grid : ℕ → ℕ → Bool) (o o' : Out) (f : Str),
    o.id ≠ o'.id ∧ dump base ext dpl grid o = .ok [f] ∧ dump base ext dpl grid o' = .ok [f] :=
  ⟨['S'], ['v', 't', 'k'], [1], fun _ _ => true, ⟨"cons".toList, 7, -1, -1⟩, ⟨"prim".toList, 7, -1, -1⟩,
    "S.0007.vtk".toList, by decide, by decide, by decide⟩

/-- Two outputs through `output_tab` or `output_vtk` with different identifiers or numbers share no file. -/
theorem two_outputs (base ext : Str) (dpl dpl' : List ℕ) (grid grid' : ℕ → ℕ → Bool) (o o' : Out)
    (h1 : dpl.length ≤ 10000 ∧ (∀ n ∈ dpl, n ≤ 10000) ∧ o.num ≤ 2147483647)
    (h2 : dpl'.length ≤ 10000 ∧ (∀ n ∈ dpl', n ≤ 10000) ∧ o'.num ≤ 2147483647)
    (hne : o.id ≠ o'.id ∨ o.num ≠ o'.num) :
    ∃ fs fs', output base ext dpl grid o = .ok fs ∧ output base ext dpl' grid' o' = .ok fs' ∧
      ∀ f ∈ fs, f ∉ fs' := by
  refine ⟨_, _, (output_own_file base ext dpl grid o h1.1 h1.2.1 h1.2.2).1,
    (output_own_file base ext dpl' grid' o' h2.1 h2.2.1 h2.2.2).1, ?_⟩
  intro f hf hf'
  obtain ⟨p, -, rfl⟩ := List.mem_map.mp hf
  obtain ⟨q, -, e⟩ := List.mem_map.mp hf'
  have h' : fname (mk (tagOpt ['l', 'e', 'v'] p.1) base ext 4 p.1 p.2 o.num (some o.id))
      = fname (mk (tagOpt ['l', 'e', 'v'] q.1) base ext 4 q.1 q.2 o'.num (some o'.id)) := by
    rw [fname_proper _ _ _ _ _ h1.2.2, fname_proper _ _ _ _ _ h2.2.2, e]
  obtain ⟨-, -, e3, e4⟩ := dump_name_differ base ext 4 _ _ _ _ _ _ _ _ (by decide) h1.2.2 h2.2.2 h'
  rcases hne with h | h
  · exact h (by simpa using e4)
  · exact h e3

/-! The condition of `dump_own_file_partial` is met by a Mesh with two Domains on the finest level only. -/
example : (visited [1, 1, 2] (fun _ _ => true) ⟨[], 7, -1, -1⟩).Pairwise fun p q => p.2 > 0 → q.2 > 0 := by decide
example : dump ['S'] ['v', 't', 'k'] [1, 1, 2] (fun _ _ => true) ⟨[], 12345, -1, -1⟩ = .ok
    ["S.12345.vtk".toList, "lev1/S-lev1.12345.vtk".toList, "lev2/S-lev2.12345.vtk".toList,
      "lev2/S-lev2-dom1.12345.vtk".toList] := by decide

end Athena.Fname
