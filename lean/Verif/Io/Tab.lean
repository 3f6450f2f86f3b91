import Verif.Io.Fname
import Mathlib.Data.Nat.Log
import Mathlib.Data.Fin.VecNotation
import Mathlib.Tactic.FinCases
import Mathlib.Data.Fintype.Basic
import Mathlib.Data.List.Nodup
import Mathlib.Tactic.NormNum
import Mathlib.Tactic.IntervalCases

/-!
# src/dump_tab.c: the formatted table of a Grid; C57

The text of the file is modelled character by character from the line of column headers on.  A number printed with the
user's format is an abstract text (`Fmt`): a run of spaces and a word.  Not modelled: the lines before the column
headers (`# Nx1 = …`), and the opening of the file (names: C56).
-/

namespace Athena.Tab

open Athena.Fname

/-! ## Specification -/

/-- The words of a line of text: the maximal runs of characters that are not blank. -/
def words : Str → Str → List Str
  | [], [] => []
  | c :: w, [] => [(c :: w).reverse]
  | w, c :: s =>
    if c = ' ' then (if w = [] then words [] s else w.reverse :: words [] s) else words (c :: w) s

/-- The words of a line. -/
def fields (s : Str) : List Str := words [] s

/-- The columns of a table. -/
inductive Col where
  | zone (a : Fin 3)
  | pos (a : Fin 3)
  | dens
  | vec (a : Fin 3)
  | ener
  | field (a : Fin 3)
  | phi
  | pdens
  | pvec (a : Fin 3)
  | scal (n : ℕ)
deriving DecidableEq

/-- The name of a column in the header; `prim`: the table of primitive variables. -/
def Col.name (prim : Bool) : Col → Str
  | .zone a => [['i', 'j', 'k'].get a] ++ "-zone".toList
  | .pos a => 'x' :: dec (a + 1)
  | .dens => "d".toList
  | .vec a => (if prim then 'V' else 'M') :: dec (a + 1)
  | .ener => if prim then "P".toList else "E".toList
  | .field a => 'B' :: dec (a + 1) ++ "c".toList
  | .phi => "Phi".toList
  | .pdens => "dpar".toList
  | .pvec a => (if prim then 'V' else 'M') :: dec (a + 1) ++ "par".toList
  | .scal n => 's' :: dec n

/-- What a zone holds: conserved or primitive variables, potential, particles' density and momentum or velocity. -/
structure Vars (α : Type) where
  d : α
  v : Fin 3 → α
  e : α
  b : Fin 3 → α
  phi : α
  pd : α
  pv : Fin 3 → α
  s : ℕ → α

/-- A format for numbers: the text is `pad x` spaces and a word. -/
structure Fmt (α : Type) where
  pad : α → ℕ
  word : α → Str
  ne : ∀ x, word x ≠ []
  ns : ∀ x, ' ' ∉ word x

/-- The entry of a zone (indices `z`, position `x`, variables `v`) in a column. -/
def Col.entry {α : Type} (f : Fmt α) (z : Fin 3 → ℕ) (x : Fin 3 → α) (v : Vars α) : Col → Str
  | .zone a => dec (z a)
  | .pos a => f.word (x a)
  | .dens => f.word v.d
  | .vec a => f.word (v.v a)
  | .ener => f.word v.e
  | .field a => f.word (v.b a)
  | .phi => f.word v.phi
  | .pdens => f.word v.pd
  | .pvec a => f.word (v.pv a)
  | .scal n => f.word (v.s n)

/-- How Athena is configured, and the output's `out_pargrid`. -/
structure Cfg where
  barotropic : Bool
  mhd : Bool
  selfGravity : Bool
  particles : Bool
  outPargrid : Bool
  nscalars : ℕ
  ghosts : Bool
  nghost : ℕ

/-- The columns a table should have: indices and positions of the directions with more than one zone, then the
variables. -/
def columns (c : Cfg) (nx : Fin 3 → ℕ) : List Col :=
  (([0, 1, 2] : List (Fin 3)).filter fun a => 1 < nx a).map .zone ++
  (([0, 1, 2] : List (Fin 3)).filter fun a => 1 < nx a).map .pos ++
  [.dens, .vec 0, .vec 1, .vec 2] ++
  (if c.barotropic then [] else [.ener]) ++
  (if c.mhd then [.field 0, .field 1, .field 2] else []) ++
  (if c.selfGravity then [.phi] else []) ++
  (if c.particles && c.outPargrid then [.pdens, .pvec 0, .pvec 1, .pvec 2] else []) ++
  (List.range c.nscalars).map .scal

/-- `[1]=name [2]=name …`: the words of the header line. -/
def numbered (prim : Bool) : ℕ → List Col → List Str
  | _, [] => []
  | n, c :: cs => ('[' :: dec n ++ ']' :: '=' :: c.name prim) :: numbered prim (n + 1) cs

/-- The header line describes the columns `cs`. -/
def Describes (prim : Bool) (header : Str) (cs : List Col) : Prop := fields header = ['#'] :: numbered prim 1 cs

/-! ## Model -/

/-- `fprintf(pfile," [%d]=name",col_cnt); col_cnt++;` for each name, e.g. src/dump_tab.c:157-165. -/
def heads : ℕ → List Str → Str
  | _, [] => []
  | n, s :: ss => " [".toList ++ dec n ++ "]=".toList ++ s ++ heads (n + 1) ss

/-- The names printed for the zone and position columns: the index of `x1` always, `x1` if `Nx[0] > 1` (conserved
variables) or always (primitive ones), those of `x2` if `Nx[1] > 2` and of `x3` if `Nx[2] > 3`;
src/dump_tab.c:128-152, 378-400. -/
def headCoord (prim : Bool) (nx : Fin 3 → ℕ) : List Str :=
  ["i-zone".toList] ++ (if nx 1 > 2 then ["j-zone".toList] else []) ++
  (if nx 2 > 3 then ["k-zone".toList] else []) ++
  (if prim || nx 0 > 1 then ["x1".toList] else []) ++ (if nx 1 > 2 then ["x2".toList] else []) ++
  (if nx 2 > 3 then ["x3".toList] else [])

/-- The names of the variables, src/dump_tab.c:156-208 (conserved), 404-456 (primitive). -/
def headVars (prim : Bool) (c : Cfg) : List Str :=
  (if prim then ["d".toList, "V1".toList, "V2".toList, "V3".toList]
   else ["d".toList, "M1".toList, "M2".toList, "M3".toList]) ++
  (if c.barotropic then [] else [if prim then "P".toList else "E".toList]) ++
  (if c.mhd then ["B1c".toList, "B2c".toList, "B3c".toList] else []) ++
  (if c.selfGravity then ["Phi".toList] else []) ++
  (if c.particles && c.outPargrid then
     (if prim then ["dpar".toList, "V1par".toList, "V2par".toList, "V3par".toList]
      else ["dpar".toList, "M1par".toList, "M2par".toList, "M3par".toList]) else []) ++
  (List.range c.nscalars).map fun n => 's' :: dec n

/-- The header line, src/dump_tab.c:126-209, 376-457: `#` and the numbered names. -/
def header (prim : Bool) (c : Cfg) (nx : Fin 3 → ℕ) : Str :=
  '#' :: heads 1 (headCoord prim nx ++ headVars prim c)

/-- `fprintf(pfile,zone_fmt,i)` with `zone_fmt = "%<w>d"`: padded with spaces to at least `w` characters. -/
def zoneText (w n : ℕ) : Str := List.replicate (w - (dec n).length) ' ' ++ dec n

/-- `fprintf(pfile,fmt,x)` where `fmt` is a space and the user's format, src/dump_tab.c:51-56. -/
def realText {α : Type} (f : Fmt α) (x : α) : Str := ' ' :: (List.replicate (f.pad x) ' ' ++ f.word x)

/-- The width of the zone columns, `(int)(2+log10((double)(nmax)))` with `nmax` the largest of the numbers of zones,
plus `2*nghost` when ghost zones are written, src/dump_tab.c:96-115.  The floating-point logarithm is taken to be
exact. -/
def width (c : Cfg) (nx : Fin 3 → ℕ) : ℕ :=
  let nmax := if nx 0 > nx 1 then nx 0 else nx 1
  let nmax := if nx 2 > nmax then nx 2 else nmax
  let nmax := if c.ghosts then nmax + 2 * c.nghost else nmax
  2 + Nat.log 10 nmax

/-- A row of the table, src/dump_tab.c:217-262, 465-519. -/
def row {α : Type} (c : Cfg) (nx : Fin 3 → ℕ) (f : Fmt α) (z : Fin 3 → ℕ) (x : Fin 3 → α) (v : Vars α) : Str :=
  let w := width c nx
  (if nx 0 > 1 then zoneText w (z 0) else []) ++ (if nx 1 > 1 then zoneText w (z 1) else []) ++
  (if nx 2 > 1 then zoneText w (z 2) else []) ++
  (if nx 0 > 1 then realText f (x 0) else []) ++ (if nx 1 > 1 then realText f (x 1) else []) ++
  (if nx 2 > 1 then realText f (x 2) else []) ++
  realText f v.d ++ realText f (v.v 0) ++ realText f (v.v 1) ++ realText f (v.v 2) ++
  (if c.barotropic then [] else realText f v.e) ++
  (if c.mhd then realText f (v.b 0) ++ realText f (v.b 1) ++ realText f (v.b 2) else []) ++
  (if c.selfGravity then realText f v.phi else []) ++
  (if c.particles && c.outPargrid then
    realText f v.pd ++ realText f (v.pv 0) ++ realText f (v.pv 1) ++ realText f (v.pv 2) else []) ++
  (List.range c.nscalars).flatMap fun n => realText f (v.s n)

/-- The bounds of the loops, src/dump_tab.c:91-113: `is..ie` or with the ghost zones.  `is = nghost` in a direction
with more than one zone and 0 otherwise (src/init_grid.c:86-140). -/
def lo (c : Cfg) (nx : Fin 3 → ℕ) (a : Fin 3) : ℕ := if nx a > 1 then (if c.ghosts then 0 else c.nghost) else 0

def hi (c : Cfg) (nx : Fin 3 → ℕ) (a : Fin 3) : ℕ :=
  if nx a > 1 then (if c.ghosts then nx a + 2 * c.nghost - 1 else c.nghost + nx a - 1) else 0

/-- `for (i=l; i<=u; i++)`. -/
def loop (l u : ℕ) : List ℕ := List.range' l (u + 1 - l)

/-- The indices in the order of the loops `k`, `j`, `i`, src/dump_tab.c:213-215. -/
def zones (c : Cfg) (nx : Fin 3 → ℕ) : List (Fin 3 → ℕ) :=
  (loop (lo c nx 2) (hi c nx 2)).flatMap fun k => (loop (lo c nx 1) (hi c nx 1)).flatMap fun j =>
    (loop (lo c nx 0) (hi c nx 0)).map fun i => ![i, j, k]

/-- A Grid: positions and contents of the zones (the latter converted to primitive variables by the caller for
`dump_tab_prim`, src/dump_tab.c:466, 499-505). -/
structure Gr (α : Type) where
  nx : Fin 3 → ℕ
  x : (Fin 3 → ℕ) → Fin 3 → α
  v : (Fin 3 → ℕ) → Vars α

/-- The lines of the file from the header line on: `dump_tab_cons` (`prim = false`), `dump_tab_prim`. -/
def table {α : Type} (prim : Bool) (c : Cfg) (f : Fmt α) (g : Gr α) : List Str :=
  header prim c g.nx :: (zones c g.nx).map fun z => row c g.nx f z (g.x z) (g.v z)

/-! ## Lemmas on words -/

theorem words_pad (p : ℕ) (s : Str) : words [] (List.replicate p ' ' ++ s) = words [] s := by
  induction p with
  | zero => rfl
  | succ p ih => rw [List.replicate_succ, List.cons_append, words.eq_3, if_pos rfl, if_pos rfl, ih]

theorem words_run (w u s : Str) (h : ' ' ∉ w) : words u (w ++ s) = words (w.reverse ++ u) s := by
  induction w generalizing u with
  | nil => rfl
  | cons c w ih =>
    rw [List.mem_cons, not_or] at h
    rw [List.cons_append, words.eq_3, if_neg (Ne.symm h.1), ih _ h.2]
    simp

theorem words_end (u s : Str) (hu : u ≠ []) (hs : s = [] ∨ s.head? = some ' ') :
    words u s = u.reverse :: words [] s := by
  rcases hs with rfl | hs
  · cases u with
    | nil => exact absurd rfl hu
    | cons c u => rfl
  · cases s with
    | nil => simp at hs
    | cons c s =>
      simp only [List.head?_cons, Option.some.injEq] at hs
      subst hs
      rw [words.eq_3, if_pos rfl, if_neg hu, words.eq_3 [] _ _, if_pos rfl, if_pos rfl]

/-- A word followed by a blank or the end. -/
theorem fields_cons (p : ℕ) (w s : Str) (hw : w ≠ []) (hn : ' ' ∉ w) (hs : s = [] ∨ s.head? = some ' ') :
    fields (List.replicate p ' ' ++ w ++ s) = w :: fields s := by
  unfold fields
  rw [List.append_assoc, words_pad, words_run _ _ _ hn, List.append_nil,
    words_end _ _ (by simpa using hw) hs, List.reverse_reverse]

/-- Text made of padded words. -/
def text : List (ℕ × Str) → Str
  | [] => []
  | (p, w) :: l => List.replicate p ' ' ++ w ++ text l

theorem text_append (a b : List (ℕ × Str)) : text (a ++ b) = text a ++ text b := by
  induction a with
  | nil => rfl
  | cons x a ih => obtain ⟨p, w⟩ := x; simp [text, ih]

/-- Every word but the first is preceded by a blank. -/
theorem fields_text (l : List (ℕ × Str)) (hw : ∀ x ∈ l, x.2 ≠ [] ∧ ' ' ∉ x.2) (hp : ∀ x ∈ l.tail, 1 ≤ x.1) :
    fields (text l) = l.map (·.2) := by
  induction l with
  | nil => rfl
  | cons x l ih =>
    obtain ⟨p, w⟩ := x
    have h := hw _ List.mem_cons_self
    rw [text, List.map_cons, fields_cons _ _ _ h.1 h.2, ih (fun x hx => hw x (List.mem_cons_of_mem _ hx))
      (fun x hx => hp x (List.mem_of_mem_tail hx))]
    cases l with
    | nil => exact Or.inl rfl
    | cons y l =>
      obtain ⟨q, u⟩ := y
      right
      have : 1 ≤ q := hp _ List.mem_cons_self
      obtain ⟨q, rfl⟩ : ∃ r, q = r + 1 := ⟨q - 1, by omega⟩
      rw [text, List.replicate_succ]
      rfl

theorem dec_ne (n : ℕ) : dec n ≠ [] := by
  unfold dec; exact Nat.toDigits_ne_nil

theorem dec_ns (n : ℕ) : ' ' ∉ dec n := fun h => by
  have := dec_digit n _ h; exact absurd this (by decide)

/-! ## The header -/

theorem heads_text (n : ℕ) (l : List Str) :
    heads n l = text (l.zipIdx n |>.map fun x => (1, '[' :: dec x.2 ++ ']' :: '=' :: x.1)) := by
  induction l generalizing n with
  | nil => rfl
  | cons s l ih =>
    rw [heads, ih, List.zipIdx_cons, List.map_cons, text]
    simp [List.replicate]

theorem numbered_map (prim : Bool) (n : ℕ) (cs : List Col) :
    numbered prim n cs = ((cs.map (Col.name prim)).zipIdx n).map fun x => '[' :: dec x.2 ++ ']' :: '=' :: x.1 := by
  induction cs generalizing n with
  | nil => rfl
  | cons c cs ih => rw [numbered, ih, List.map_cons, List.zipIdx_cons, List.map_cons]

theorem name_ns (prim : Bool) (c : Col) : ' ' ∉ c.name prim := by
  cases c with
  | zone a => fin_cases a <;> cases prim <;> decide
  | pos a => fin_cases a <;> cases prim <;> decide
  | dens => cases prim <;> decide
  | vec a => fin_cases a <;> cases prim <;> decide
  | ener => cases prim <;> decide
  | field a => fin_cases a <;> cases prim <;> decide
  | phi => cases prim <;> decide
  | pdens => cases prim <;> decide
  | pvec a => fin_cases a <;> cases prim <;> decide
  | scal n =>
    intro h
    rcases List.mem_cons.mp h with h | h
    · exact absurd h (by decide)
    · exact dec_ns n h

/-- The header line consists of the numbered names. -/
theorem header_fields (prim : Bool) (c : Cfg) (nx : Fin 3 → ℕ) (cs : List Col)
    (h : headCoord prim nx ++ headVars prim c = cs.map (Col.name prim)) : Describes prim (header prim c nx) cs := by
  have e : header prim c nx = text ((0, ['#']) :: ((cs.map (Col.name prim)).zipIdx 1).map
      fun x => (1, '[' :: dec x.2 ++ ']' :: '=' :: x.1)) := by
    rw [header, h, heads_text]; rfl
  rw [Describes, e, fields_text, List.map_cons, List.map_map, numbered_map]
  · rfl
  · intro x hx
    rcases List.mem_cons.mp hx with rfl | hx
    · decide
    · obtain ⟨y, hy, rfl⟩ := List.mem_map.mp hx
      refine ⟨by simp, ?_⟩
      have hm := List.fst_mem_of_mem_zipIdx hy
      obtain ⟨c, -, hc⟩ := List.mem_map.mp hm
      simp only [List.cons_append, List.mem_cons, List.mem_append, not_or]
      refine ⟨by decide, dec_ns _, by decide, by decide, ?_⟩
      rw [← hc]; exact name_ns prim c
  · intro x hx
    obtain ⟨y, hy, rfl⟩ := List.mem_map.mp hx
    exact le_rfl

theorem headVars_names (prim : Bool) (c : Cfg) :
    headVars prim c = (([.dens, .vec 0, .vec 1, .vec 2] ++
      (if c.barotropic then [] else [.ener]) ++
      (if c.mhd then [.field 0, .field 1, .field 2] else []) ++
      (if c.selfGravity then [.phi] else []) ++
      (if c.particles && c.outPargrid then [.pdens, .pvec 0, .pvec 1, .pvec 2] else []) ++
      (List.range c.nscalars).map .scal : List Col)).map (Col.name prim) := by
  have hs : ((List.range c.nscalars).map .scal : List Col).map (Col.name prim) =
      (List.range c.nscalars).map fun n => 's' :: dec n := by
    rw [List.map_map]; rfl
  rw [List.map_append, hs, headVars]
  congr 1
  cases prim <;> cases c.barotropic <;> cases c.mhd <;> cases c.selfGravity <;> cases c.particles <;>
    cases c.outPargrid <;> rfl

/-- **C57** (partial): the header line numbers and names the columns of the table, provided no direction has exactly
two, and the third none three, zones. -/
theorem tab_header_partial (prim : Bool) (c : Cfg) (nx : Fin 3 → ℕ) (h0 : 1 < nx 0) (h1 : nx 1 ≠ 2)
    (h2 : nx 2 ≠ 2 ∧ nx 2 ≠ 3) : Describes prim (header prim c nx) (columns c nx) := by
  apply header_fields
  rw [headVars_names]
  have e1 : (nx 1 > 2) = (1 < nx 1) := by apply propext; constructor <;> intro <;> omega
  have e2 : (nx 2 > 3) = (1 < nx 2) := by apply propext; constructor <;> intro <;> omega
  unfold headCoord columns
  simp only [e1, e2, gt_iff_lt, h0, List.map_append, List.append_assoc]
  by_cases a : 1 < nx 1 <;> by_cases b : 1 < nx 2 <;> simp [a, b, h0] <;> cases prim <;> decide

/-! ## The rows -/

theorem length_dec (n : ℕ) (hn : 0 < n) : (dec n).length = Nat.log 10 n + 1 := by
  apply le_antisymm
  · exact (Nat.length_toDigits_le_iff (by decide) (Nat.succ_pos _)).mpr (Nat.lt_pow_succ_log_self (by decide) n)
  · by_contra h
    have h' : (dec n).length ≤ Nat.log 10 n := by omega
    have h0 : 0 < (dec n).length := List.length_pos_iff.mpr (dec_ne n)
    have := (Nat.length_toDigits_le_iff (b := 10) (by decide) h0).mp le_rfl
    have h2 : 10 ^ Nat.log 10 n ≤ n := Nat.pow_log_le_self 10 (by omega)
    have h3 : 10 ^ (dec n).length ≤ 10 ^ Nat.log 10 n := Nat.pow_le_pow_right (by decide) h'
    exact absurd this (Nat.not_lt.mpr (le_trans h3 h2))

/-- A row as padded words. -/
def rowWords {α : Type} (c : Cfg) (nx : Fin 3 → ℕ) (f : Fmt α) (z : Fin 3 → ℕ) (x : Fin 3 → α) (v : Vars α) :
    Col → ℕ × Str := fun col => (match col with
    | .zone a => width c nx - (dec (z a)).length
    | .pos a => f.pad (x a) + 1
    | .dens => f.pad v.d + 1
    | .vec a => f.pad (v.v a) + 1
    | .ener => f.pad v.e + 1
    | .field a => f.pad (v.b a) + 1
    | .phi => f.pad v.phi + 1
    | .pdens => f.pad v.pd + 1
    | .pvec a => f.pad (v.pv a) + 1
    | .scal n => f.pad (v.s n) + 1, col.entry f z x v)

theorem flatMap_text {α : Type} (f : Fmt α) (v : ℕ → α) (l : List ℕ) :
    l.flatMap (fun n => realText f (v n)) = text (l.map fun n => (f.pad (v n) + 1, f.word (v n))) := by
  induction l with
  | nil => rfl
  | cons n l ih => rw [List.flatMap_cons, ih, List.map_cons, text]; rfl

theorem row_text {α : Type} (c : Cfg) (nx : Fin 3 → ℕ) (f : Fmt α) (z : Fin 3 → ℕ) (x : Fin 3 → α) (v : Vars α) :
    row c nx f z x v = text ((columns c nx).map (rowWords c nx f z x v)) := by
  have hs : (((List.range c.nscalars).map .scal : List Col)).map (rowWords c nx f z x v) =
      (List.range c.nscalars).map fun n => (f.pad (v.s n) + 1, f.word (v.s n)) := by
    rw [List.map_map]; rfl
  unfold columns
  rw [List.map_append, text_append, hs, ← flatMap_text]
  unfold row
  congr 1
  have r (y : α) (l : List (ℕ × Str)) : text ((f.pad y + 1, f.word y) :: l) = realText f y ++ text l := by
    rw [text, realText, List.replicate_succ]; simp
  have zt (a : Fin 3) (l : List (ℕ × Str)) :
      text ((width c nx - (dec (z a)).length, dec (z a)) :: l) = zoneText (width c nx) (z a) ++ text l := by
    rw [text, zoneText]
  have hf (g : Fin 3 → Col) : text (((([0, 1, 2] : List (Fin 3)).filter fun a => 1 < nx a).map g).map
      (rowWords c nx f z x v)) =
      (if nx 0 > 1 then text [rowWords c nx f z x v (g 0)] else []) ++
      (if nx 1 > 1 then text [rowWords c nx f z x v (g 1)] else []) ++
      (if nx 2 > 1 then text [rowWords c nx f z x v (g 2)] else []) := by
    by_cases a0 : 1 < nx 0 <;> by_cases a1 : 1 < nx 1 <;> by_cases a2 : 1 < nx 2 <;>
      simp [a0, a1, a2, text]
  have ite_nil (b : Prop) [Decidable b] (l : List Col) :
      text ((if b then l else []).map (rowWords c nx f z x v)) =
        if b then text (l.map (rowWords c nx f z x v)) else [] := by split_ifs <;> rfl
  have nil_ite (b : Prop) [Decidable b] (l : List Col) :
      text ((if b then [] else l).map (rowWords c nx f z x v)) =
        if b then [] else text (l.map (rowWords c nx f z x v)) := by split_ifs <;> rfl
  rw [List.map_append, List.map_append, List.map_append, List.map_append, List.map_append, List.map_append,
    text_append, text_append, text_append, text_append, text_append, text_append, hf, hf, nil_ite, ite_nil, ite_nil,
    ite_nil]
  simp only [List.map_cons, List.map_nil, rowWords, Col.entry, r, zt]
  simp only [text, List.append_nil, List.append_assoc]

/-- The zone indices leave room for a blank in front of the second and third index. -/
def Roomy (c : Cfg) (nx : Fin 3 → ℕ) (z : Fin 3 → ℕ) : Prop :=
  ∀ a : Fin 3, a ≠ 0 → 1 < nx a → (dec (z a)).length < width c nx

/-- The fields of a row are the entries of the columns. -/
theorem row_fields {α : Type} (c : Cfg) (nx : Fin 3 → ℕ) (f : Fmt α) (z : Fin 3 → ℕ) (x : Fin 3 → α) (v : Vars α)
    (h0 : 1 < nx 0) (hr : Roomy c nx z) :
    fields (row c nx f z x v) = (columns c nx).map (Col.entry f z x v) := by
  rw [row_text, fields_text, List.map_map]
  · rfl
  · intro y hy
    obtain ⟨col, -, rfl⟩ := List.mem_map.mp hy
    cases col <;> first | exact ⟨dec_ne _, dec_ns _⟩ | exact ⟨f.ne _, f.ns _⟩
  · intro y hy
    rw [← List.map_tail] at hy
    obtain ⟨col, hc, rfl⟩ := List.mem_map.mp hy
    cases col with
    | zone a =>
      have ha : a ≠ 0 ∧ 1 < nx a := by
        have h0' : decide (1 < nx 0) = true := by simpa using h0
        simp only [columns, List.filter_cons, h0', if_true, List.map_cons, List.cons_append, List.tail_cons] at hc
        by_cases a1 : 1 < nx 1 <;> by_cases a2 : 1 < nx 2 <;>
          cases c.barotropic <;> cases c.mhd <;> cases c.selfGravity <;> cases c.particles <;>
          cases c.outPargrid <;> simp [a1, a2] at hc <;> (try rcases hc with rfl | rfl) <;> (try subst hc) <;>
          simp [a1, a2]
      have := hr a ha.1 ha.2
      show 1 ≤ width c nx - (dec (z a)).length
      omega
    | _ => exact Nat.le_add_left 1 _

theorem mem_loop (l u n : ℕ) : n ∈ loop l u ↔ l ≤ n ∧ n ≤ u := by
  unfold loop; rw [List.mem_range'_1]; omega

/-- The rows run over every zone between the bounds. -/
theorem mem_zones (c : Cfg) (nx : Fin 3 → ℕ) (z : Fin 3 → ℕ) :
    z ∈ zones c nx ↔ ∀ a, lo c nx a ≤ z a ∧ z a ≤ hi c nx a := by
  unfold zones
  simp only [List.mem_flatMap, List.mem_map, mem_loop]
  constructor
  · rintro ⟨k, hk, j, hj, i, hi', rfl⟩ a
    fin_cases a
    · exact hi'
    · exact hj
    · exact hk
  · intro h
    refine ⟨z 2, h 2, z 1, h 1, z 0, h 0, ?_⟩
    funext a; fin_cases a <;> rfl

/-- … exactly once. -/
theorem nodup_zones (c : Cfg) (nx : Fin 3 → ℕ) : (zones c nx).Nodup := by
  have nl (l u : ℕ) : (loop l u).Nodup := List.nodup_range'
  unfold zones
  rw [List.nodup_flatMap]
  refine ⟨fun k _ => ?_, ?_⟩
  · rw [List.nodup_flatMap]
    refine ⟨fun j _ => ?_, ?_⟩
    · apply List.Nodup.map _ (nl _ _)
      intro i i' h
      exact congrFun h 0
    · refine (nl _ _).imp ?_
      intro j j' hne z hz hz'
      obtain ⟨i, -, rfl⟩ := List.mem_map.mp hz
      obtain ⟨i', -, e⟩ := List.mem_map.mp hz'
      exact hne (congrFun e 1).symm
  · refine (nl _ _).imp ?_
    intro k k' hne z hz hz'
    obtain ⟨j, -, hz⟩ := List.mem_flatMap.mp hz
    obtain ⟨i, -, rfl⟩ := List.mem_map.mp hz
    obtain ⟨j', -, hz'⟩ := List.mem_flatMap.mp hz'
    obtain ⟨i', -, e⟩ := List.mem_map.mp hz'
    exact hne (congrFun e 2).symm

/-- The indices have at most as many digits as the largest number of zones. -/
def Digits (c : Cfg) (nx : Fin 3 → ℕ) : Prop :=
  ∀ a : Fin 3, a ≠ 0 → 1 < nx a → Nat.log 10 (nx a + c.nghost - 1) ≤ Nat.log 10 (max (max (nx 0) (nx 1)) (nx 2))

theorem width_eq (c : Cfg) (nx : Fin 3 → ℕ) :
    width c nx = 2 + Nat.log 10 (max (max (nx 0) (nx 1)) (nx 2) + if c.ghosts then 2 * c.nghost else 0) := by
  unfold width
  dsimp only
  have e1 : (if nx 0 > nx 1 then nx 0 else nx 1) = max (nx 0) (nx 1) := by split_ifs <;> omega
  rw [e1]
  have e2 : (if nx 2 > max (nx 0) (nx 1) then nx 2 else max (nx 0) (nx 1)) = max (max (nx 0) (nx 1)) (nx 2) := by
    split_ifs <;> omega
  rw [e2]
  cases c.ghosts <;> rfl

theorem roomy_of (c : Cfg) (nx z : Fin 3 → ℕ) (hd : c.ghosts = true ∨ Digits c nx) (hz : z ∈ zones c nx) :
    Roomy c nx z := by
  intro a ha hn
  have hb := (mem_zones c nx z).mp hz a
  have hmax : nx a ≤ max (max (nx 0) (nx 1)) (nx 2) := by fin_cases a <;> simp
  unfold hi at hb
  rw [if_pos hn] at hb
  rw [width_eq]
  rcases Nat.eq_zero_or_pos (z a) with h | h
  · rw [h]
    show 1 < _
    omega
  · rw [length_dec _ h]
    rcases hd with hg | hd
    · rw [hg] at hb
      simp only [if_true] at hb
      have : Nat.log 10 (z a) ≤ Nat.log 10 (max (max (nx 0) (nx 1)) (nx 2) + 2 * c.nghost) :=
        Nat.log_mono_right (by omega)
      rw [hg]
      simp only [if_true]
      omega
    · have h1 : Nat.log 10 (z a) ≤ Nat.log 10 (max (max (nx 0) (nx 1)) (nx 2) + if c.ghosts then 2 * c.nghost else 0) := by
        cases hg : c.ghosts with
        | true =>
          rw [hg] at hb
          simp only [if_true] at hb ⊢
          exact Nat.log_mono_right (by omega)
        | false =>
          rw [hg] at hb
          simp only [Bool.false_eq_true, if_false, Nat.add_zero] at hb ⊢
          refine le_trans (Nat.log_mono_right ?_) (hd a ha hn)
          omega
      omega

/-- The table of a Grid reads back: the header line describes the columns, and there is one line for every zone, in the
order of the loops, whose fields are the zone's entries in the columns. -/
def Faithful {α : Type} (prim : Bool) (c : Cfg) (f : Fmt α) (g : Gr α) : Prop :=
  ∃ h rows, table prim c f g = h :: rows ∧ Describes prim h (columns c g.nx) ∧
    ∃ zs : List (Fin 3 → ℕ), zs.Nodup ∧ (∀ z, z ∈ zs ↔ ∀ a, lo c g.nx a ≤ z a ∧ z a ≤ hi c g.nx a) ∧
      rows.map fields = zs.map fun z => (columns c g.nx).map (Col.entry f z (g.x z) (g.v z))

/-- **C57** (partial): a table can be read back, column by column under its header, if no direction has two (the third:
two or three) zones, and the zone indices have no more digits than the largest number of zones (or ghost zones are
written). -/
theorem tab_faithful_partial {α : Type} (prim : Bool) (c : Cfg) (f : Fmt α) (g : Gr α) (h0 : 1 < g.nx 0)
    (h1 : g.nx 1 ≠ 2) (h2 : g.nx 2 ≠ 2 ∧ g.nx 2 ≠ 3) (hd : c.ghosts = true ∨ Digits c g.nx) :
    Faithful prim c f g := by
  have e : table prim c f g =
      header prim c g.nx :: (zones c g.nx).map fun z => row c g.nx f z (g.x z) (g.v z) := by unfold table; rfl
  refine ⟨header prim c g.nx, (zones c g.nx).map fun z => row c g.nx f z (g.x z) (g.v z), e,
    tab_header_partial prim c g.nx h0 h1 h2, zones c g.nx, nodup_zones _ _, mem_zones _ _, ?_⟩
  rw [List.map_map]
  apply List.map_congr_left
  intro z hz
  rw [Function.comp_apply]
  exact row_fields c g.nx f z _ _ h0 (roomy_of c g.nx z hd hz)

/-! ## Counterexamples -/

/-- A format for natural numbers. -/
def exFmt : Fmt ℕ := ⟨fun _ => 0, dec, dec_ne, dec_ns⟩

/-- Adiabatic hydrodynamics with `nghost = 4`. -/
def exCfg : Cfg := ⟨false, false, false, false, false, 0, false, 4⟩

def exGr (nx : Fin 3 → ℕ) : Gr ℕ :=
  ⟨nx, fun z a => z a, fun z => ⟨1 + z 0, fun _ => 2, 3, fun _ => 0, 0, 0, fun _ => 0, fun _ => 0⟩⟩

/-- The hypotheses of `tab_faithful_partial` hold for a Grid of 64 by 32 zones. -/
example : Faithful false exCfg exFmt (exGr ![64, 32, 1]) :=
  tab_faithful_partial false exCfg exFmt (exGr ![64, 32, 1]) (by decide) (by decide) (by decide) (Or.inr (by
    intro a ha hn
    fin_cases a
    · exact absurd rfl ha
    · show Nat.log 10 35 ≤ Nat.log 10 64
      exact Nat.log_mono_right (by decide)
    · exact absurd hn (by decide)))

/-- … and for ghost zones and three directions. -/
example : Faithful true { exCfg with ghosts := true, mhd := true, nscalars := 2 } exFmt (exGr ![8, 8, 8]) :=
  tab_faithful_partial true _ exFmt (exGr ![8, 8, 8]) (by decide) (by decide) (by decide) (Or.inl rfl)

/-- A header that describes columns has as many words as there are columns, plus one. -/
theorem describes_length {prim : Bool} {h : Str} {cs : List Col} (H : Describes prim h cs) :
    (fields h).length = cs.length + 1 := by
  rw [H, numbered_map]; simp

/-- **C57** is false: with two zones in the second direction the header names two columns fewer than the rows have. -/
theorem tab_header_false : ¬ Describes false (header false exCfg ![8, 2, 1]) (columns exCfg ![8, 2, 1]) := by
  intro h
  have := describes_length h
  revert this
  decide

/-- **C57** is false: in a Grid of 8 by 8 zones the indices 10, 10 are printed as `1010`, so the row has a field less
than there are columns. -/
theorem tab_columns_false : ¬ ∀ z ∈ zones exCfg ![8, 8, 1], ∀ (x : Fin 3 → ℕ) (v : Vars ℕ),
    (fields (row exCfg ![8, 8, 1] exFmt z x v)).length = (columns exCfg ![8, 8, 1]).length := by
  intro h
  have hz : ![10, 10, 0] ∈ zones exCfg ![8, 8, 1] := by decide
  have := h _ hz (fun a => a) ⟨1, fun _ => 2, 3, fun _ => 0, 0, 0, fun _ => 0, fun _ => 0⟩
  revert this
  have e : width exCfg ![8, 8, 1] = 2 := by rw [width_eq]; decide +kernel
  unfold row
  rw [e]
  decide

end Athena.Tab
