import Verif.Par.Model
import Verif.Mesh.Pos
import Mathlib.Algebra.BigOperators.Field
import Mathlib.Data.List.DropRight
import Mathlib.Order.Interval.Finset.Basic
import Mathlib.Data.Int.Interval
import Mathlib.Algebra.BigOperators.Intervals

/-!
# src/output.c: slices of data: `parse_slice`, `OutData3`, `OutData2`, `OutData1`; C46

Exact reals; `atof` is an arbitrary function from texts to numbers.
-/

namespace Athena.Slice
open Athena.Pos
noncomputable section

/-! ## Parsing -/

/-- `parse_slice`, src/output.c:1368-1397, when the parameter exists: `expr` is its value, `l0`, `u0` are the
values of `*l` and `*u` before.  The message of the error passes two doubles to `%d`, so the program's
behaviour is undefined when the limits are reversed. -/
def parseSlice (atof : List Char → ℝ) (expr : List Char) (l0 u0 : ℝ) : Res (ℝ × ℝ) :=
  let lu : ℝ × ℝ :=
    if ':' ∈ expr then
      let cp := (expr.dropWhile (· ≠ ':')).tail
      let cp := cp.dropWhile Par.isSpace
      let u := if cp ≠ [] then atof cp else u0
      let cp := (expr.takeWhile (· ≠ ':')).dropWhile Par.isSpace
      let l := if cp ≠ [] then atof cp else l0
      (l, u)
    else (atof expr, atof expr)
  if lu.1 > lu.2 then .ub else .ok lu

/-! ## Selecting zones along one coordinate -/

/-- `k=kl+1; while (l >= fc(k)) k++;`, e.g. src/output.c:758-763; `none` if it has not stopped after `F`
iterations. -/
def searchUp (a : Axis) (l : ℝ) : ℕ → ℤ → Option ℤ
  | 0, _ => none
  | F + 1, k => if l ≥ fcPos a k then searchUp a l F (k + 1) else some k

/-- `k=ku; while (u < fc(k)) k--;`, e.g. src/output.c:766-771. -/
def searchDown (a : Axis) (u : ℝ) : ℕ → ℤ → Option ℤ
  | 0, _ => none
  | F + 1, k => if u < fcPos a k then searchDown a u F (k - 1) else some k

/-- `kstart` and `kend`, src/output.c:757-772, 790-805, 828-843 and six times in `OutData1`. -/
def findRange (F : ℕ) (a : Axis) (lo hi : ℤ) (l u : ℝ) : Option (ℤ × ℤ) := do
  let k ← searchUp a l F (lo + 1)
  let ke ← searchDown a u F hi
  return (k - 1, ke)

/-- `for (k=ks; k<=ke; k++) acc += f(k)`. -/
def sumLoop (f : ℤ → ℝ) (ks ke : ℤ) (acc : ℝ) : ℝ :=
  (List.range (ke + 1 - ks).toNat).foldl (fun (x : ℝ) (n : ℕ) => x + f (ks + (n : ℤ))) acc

/-! ## The Grid and the output -/

/-- A Grid: axes, numbers of zones, upper ends; `ghost` is `WRITE_GHOST_CELLS`, `ng` is `nghost`. -/
structure Grid where
  ax : Fin 3 → Axis
  nx : Fin 3 → ℤ
  maxX : Fin 3 → ℝ
  ghost : Bool
  ng : ℤ

/-- `il`, `jl`, `kl`, src/output.c:635-666 and the same in the other two functions. -/
def Grid.lo (g : Grid) (d : Fin 3) : ℤ := if g.ghost ∧ g.nx d > 1 then (g.ax d).s - g.ng else (g.ax d).s

/-- `iu`, `ju`, `ku`. -/
def Grid.hi (g : Grid) (d : Fin 3) : ℤ := if g.ghost ∧ g.nx d > 1 then (g.ax d).e + g.ng else (g.ax d).e

/-- The members of `OutputS` used: `ndim`, `x1l` …, `reduce_x1` …, and the expression, a function of the zone. -/
structure Out where
  ndim : ℤ
  l : Fin 3 → ℝ
  u : Fin 3 → ℝ
  reduce : Fin 3 → Bool
  expr : ℤ → ℤ → ℤ → ℝ

/-- An array of output data with its dimensions: `data[j][i]` for `0 ≤ j < n2`, `0 ≤ i < n1`. -/
structure Data2 where
  n1 : ℤ
  n2 : ℤ
  at' : ℤ → ℤ → ℝ

/-- A 3D array of output data. -/
structure Data3 where
  n1 : ℤ
  n2 : ℤ
  n3 : ℤ
  at' : ℤ → ℤ → ℤ → ℝ

/-- A 1D array of output data. -/
structure Data1 where
  n1 : ℤ
  at' : ℤ → ℝ

/-- `OutData3`, src/output.c:626-678. -/
def outData3 (g : Grid) (o : Out) : Res Data3 :=
  if o.ndim ≠ 3 then .fatal else
  .ok ⟨g.hi 0 - g.lo 0 + 1, g.hi 1 - g.lo 1 + 1, g.hi 2 - g.lo 2 + 1,
    fun k j i => o.expr (i + g.lo 0) (j + g.lo 1) (k + g.lo 2)⟩

/-- The slice lies outside the Grid in direction `d`: `x3u < MinX[2] || x3l >= MaxX[2]`. -/
def outside (g : Grid) (o : Out) (d : Fin 3) : Prop :=
  o.u d < (g.ax d).minX ∨ o.l d ≥ g.maxX d

open Classical in
/-- `OutData2`, src/output.c:689-859.  The outer `Option` is `none` if a search has not ended after `F`
iterations; the inner is `none` when NULL is returned.  If no direction is to be reduced the
uninitialised pointer `data` is returned. -/
def outData2 (F : ℕ) (g : Grid) (o : Out) : Res (Option (Option Data2)) :=
  if o.ndim ≠ 2 then .fatal else
  let n1 := g.hi 0 - g.lo 0 + 1
  let n2 := g.hi 1 - g.lo 1 + 1
  let n3 := g.hi 2 - g.lo 2 + 1
  if g.nx 2 = 1 then
    .ok (some (some ⟨n1, n2, fun j i => o.expr (i + g.lo 0) (j + g.lo 1) (g.lo 2)⟩))
  else if o.reduce 2 then
    if outside g o 2 then .ok (some none) else
    match findRange F (g.ax 2) (g.lo 2) (g.hi 2) (o.l 2) (o.u 2) with
    | none => .ok none
    | some (ks, ke) =>
      let factor := 1 / ((ke - ks + 1 : ℤ) : ℝ)
      .ok (some (some ⟨n1, n2, fun j i =>
        sumLoop (fun k => o.expr (i + g.lo 0) (j + g.lo 1) k) ks ke 0 * factor⟩))
  else if o.reduce 1 then
    if outside g o 1 then .ok (some none) else
    match findRange F (g.ax 1) (g.lo 1) (g.hi 1) (o.l 1) (o.u 1) with
    | none => .ok none
    | some (js, je) =>
      let factor := 1 / ((je - js + 1 : ℤ) : ℝ)
      .ok (some (some ⟨n1, n3, fun k i =>
        sumLoop (fun j => o.expr (i + g.lo 0) j (k + g.lo 2)) js je 0 * factor⟩))
  else if o.reduce 0 then
    if outside g o 0 then .ok (some none) else
    match findRange F (g.ax 0) (g.lo 0) (g.hi 0) (o.l 0) (o.u 0) with
    | none => .ok none
    | some (is', ie) =>
      let factor := 1 / ((ie - is' + 1 : ℤ) : ℝ)
      .ok (some (some ⟨n2, n3, fun k j =>
        sumLoop (fun i => o.expr i (j + g.lo 1) (k + g.lo 2)) is' ie 0 * factor⟩))
  else .ub

/-- The range in x3 in `OutData1`: all of it if there is one zone, src/output.c:941-961, 994-1014. -/
def findRange3 (F : ℕ) (g : Grid) (o : Out) : Option (ℤ × ℤ) :=
  if g.nx 2 = 1 then some (g.lo 2, g.hi 2)
  else findRange F (g.ax 2) (g.lo 2) (g.hi 2) (o.l 2) (o.u 2)

open Classical in
/-- `OutData1`, src/output.c:871-1097. -/
def outData1 (F : ℕ) (g : Grid) (o : Out) : Res (Option (Option Data1)) :=
  if o.ndim ≠ 1 then .fatal else
  let n1 := g.hi 0 - g.lo 0 + 1
  let n2 := g.hi 1 - g.lo 1 + 1
  let n3 := g.hi 2 - g.lo 2 + 1
  if g.nx 1 = 1 then .ok (some (some ⟨n1, fun i => o.expr (i + g.lo 0) (g.lo 1) (g.lo 2)⟩))
  else if o.reduce 0 = false then
    if outside g o 2 ∨ outside g o 1 then .ok (some none) else
    match findRange3 F g o, findRange F (g.ax 1) (g.lo 1) (g.hi 1) (o.l 1) (o.u 1) with
    | some (ks, ke), some (js, je) =>
      let factor := 1 / ((ke - ks + 1 : ℤ) : ℝ) / ((je - js + 1 : ℤ) : ℝ)
      .ok (some (some ⟨n1, fun i =>
        (List.range (ke + 1 - ks).toNat).foldl (fun (x : ℝ) (n : ℕ) =>
          sumLoop (fun j => o.expr (i + g.lo 0) j (ks + (n : ℤ))) js je x) 0 * factor⟩))
    | _, _ => .ok none
  else if o.reduce 1 = false then
    if outside g o 2 ∨ outside g o 0 then .ok (some none) else
    match findRange3 F g o, findRange F (g.ax 0) (g.lo 0) (g.hi 0) (o.l 0) (o.u 0) with
    | some (ks, ke), some (is', ie) =>
      let factor := 1 / ((ke - ks + 1 : ℤ) : ℝ) / ((ie - is' + 1 : ℤ) : ℝ)
      .ok (some (some ⟨n2, fun j =>
        (List.range (ke + 1 - ks).toNat).foldl (fun (x : ℝ) (n : ℕ) =>
          sumLoop (fun i => o.expr i (j + g.lo 1) (ks + (n : ℤ))) is' ie x) 0 * factor⟩))
    | _, _ => .ok none
  else if o.reduce 2 = false then
    if outside g o 1 ∨ outside g o 0 then .ok (some none) else
    match findRange F (g.ax 1) (g.lo 1) (g.hi 1) (o.l 1) (o.u 1),
          findRange F (g.ax 0) (g.lo 0) (g.hi 0) (o.l 0) (o.u 0) with
    | some (js, je), some (is', ie) =>
      let factor := 1 / ((je - js + 1 : ℤ) : ℝ) / ((ie - is' + 1 : ℤ) : ℝ)
      .ok (some (some ⟨n3, fun k =>
        (List.range (je + 1 - js).toNat).foldl (fun (x : ℝ) (n : ℕ) =>
          sumLoop (fun i => o.expr i (js + (n : ℤ)) (k + g.lo 2)) is' ie x) 0 * factor⟩))
    | _, _ => .ok none
  else .ub

/-! ## Specification -/

/-- The zones of a Grid's array whose extent `[fc k, fc (k+1))` meets the interval `[l, u]`. -/
def zonesIn (a : Axis) (lo hi : ℤ) (l u : ℝ) : Finset ℤ :=
  (Finset.Icc lo hi).filter fun k => fcPos a k ≤ u ∧ l < fcPos a (k + 1)

/-- Arithmetic mean over a finite set of zones. -/
def mean (S : Finset ℤ) (f : ℤ → ℝ) : ℝ := (∑ k ∈ S, f k) / S.card

/-- What a Grid made by `init_grid` satisfies: positive zone size, `MaxX` is the upper face of the last active
zone, and the index range. -/
structure Grid.Ok (g : Grid) : Prop where
  dx : ∀ d, 0 < (g.ax d).dx
  max : ∀ d, g.maxX d = fcPos (g.ax d) ((g.ax d).e + 1)
  nx : ∀ d, (g.ax d).e = (g.ax d).s + g.nx d - 1
  pos : ∀ d, 1 ≤ g.nx d
  ng : 0 ≤ g.ng

/-! ## Lemmas -/

theorem fcPos_mono {a : Axis} (h : 0 < a.dx) {i j : ℤ} (hij : i ≤ j) : fcPos a i ≤ fcPos a j := by
  unfold fcPos
  have : ((i - a.s : ℤ) : ℝ) ≤ ((j - a.s : ℤ) : ℝ) := by exact_mod_cast (by omega : i - a.s ≤ j - a.s)
  have := mul_le_mul_of_nonneg_right this h.le
  linarith

theorem searchUp_spec (a : Axis) (l : ℝ) (top : ℤ) (ht : l < fcPos a top) : ∀ (F : ℕ) (k : ℤ),
    k ≤ top → (top - k).toNat < F →
    ∃ r, searchUp a l F k = some r ∧ k ≤ r ∧ r ≤ top ∧ l < fcPos a r ∧
      (∀ i, k ≤ i → i < r → fcPos a i ≤ l) := by
  intro F
  induction F with
  | zero => intro k _ h; omega
  | succ F ih =>
    intro k hk hF
    unfold searchUp
    by_cases h : l ≥ fcPos a k
    · rw [if_pos h]
      have hne : k ≠ top := by rintro rfl; exact absurd ht (not_lt.mpr h)
      obtain ⟨r, h1, h2, h3, h4, h5⟩ := ih (k + 1) (by omega) (by omega)
      refine ⟨r, h1, by omega, h3, h4, ?_⟩
      intro i hi hir
      by_cases hik : i = k
      · rw [hik]; exact h
      · exact h5 i (by omega) hir
    · rw [if_neg h]
      exact ⟨k, rfl, le_rfl, hk, not_le.mp h, fun i h1 h2 => by omega⟩

theorem searchDown_spec (a : Axis) (u : ℝ) (bot : ℤ) (hb : fcPos a bot ≤ u) : ∀ (F : ℕ) (k : ℤ),
    bot ≤ k → (k - bot).toNat < F →
    ∃ r, searchDown a u F k = some r ∧ r ≤ k ∧ bot ≤ r ∧ fcPos a r ≤ u ∧
      (∀ i, r < i → i ≤ k → u < fcPos a i) := by
  intro F
  induction F with
  | zero => intro k _ h; omega
  | succ F ih =>
    intro k hk hF
    unfold searchDown
    by_cases h : u < fcPos a k
    · rw [if_pos h]
      have hne : k ≠ bot := by rintro rfl; exact absurd h (not_lt.mpr hb)
      obtain ⟨r, h1, h2, h3, h4, h5⟩ := ih (k - 1) (by omega) (by omega)
      refine ⟨r, h1, by omega, h3, h4, ?_⟩
      intro i hi hik
      by_cases he : i = k
      · rw [he]; exact h
      · exact h5 i hi (by omega)
    · rw [if_neg h]
      exact ⟨k, rfl, le_rfl, hk, not_lt.mp h, fun i h1 h2 => by omega⟩

/-- The searches end and find exactly the zones that meet the interval, of which there is at least one. -/
theorem findRange_spec (F : ℕ) (a : Axis) (lo hi : ℤ) (l u : ℝ) (hdx : 0 < a.dx) (hlo : lo ≤ a.s)
    (hhi : a.e ≤ hi) (hse : a.s ≤ a.e) (hlu : l ≤ u) (h1 : a.minX ≤ u) (h2 : l < fcPos a (a.e + 1))
    (hF : (hi - lo).toNat + 1 < F) :
    ∃ ks ke, findRange F a lo hi l u = some (ks, ke) ∧ ks ≤ ke ∧
      zonesIn a lo hi l u = Finset.Icc ks ke := by
  have hmin : fcPos a a.s = a.minX := by unfold fcPos; simp
  obtain ⟨r, e1, r1, r2, r3, r4⟩ := searchUp_spec a l (hi + 1)
    (lt_of_lt_of_le h2 (fcPos_mono hdx (by omega))) F (lo + 1) (by omega) (by omega)
  obtain ⟨q, e2, q1, q2, q3, q4⟩ := searchDown_spec a u lo
    (le_trans (fcPos_mono hdx hlo) (by rw [hmin]; exact h1)) F hi (by omega) (by omega)
  refine ⟨r - 1, q, by simp [findRange, e1, e2], ?_, ?_⟩
  · by_contra hc
    have hq : u < fcPos a (q + 1) ∨ q = hi := by
      by_cases h : q = hi
      · exact Or.inr h
      · exact Or.inl (q4 (q + 1) (by omega) (by omega))
    rcases hq with hq | hq
    · have := r4 (q + 1) (by omega) (by omega); linarith
    · omega
  · ext k
    simp only [zonesIn, Finset.mem_filter, Finset.mem_Icc]
    constructor
    · rintro ⟨⟨k1, k2⟩, k3, k4⟩
      constructor
      · by_contra hc
        have := r4 (k + 1) (by omega) (by omega); linarith
      · by_contra hc
        have := q4 k (by omega) k2; linarith
    · rintro ⟨k1, k2⟩
      refine ⟨⟨by omega, by omega⟩, le_trans (fcPos_mono hdx k2) q3, ?_⟩
      exact lt_of_lt_of_le r3 (fcPos_mono hdx (by omega))

theorem sumLoop_eq (f : ℤ → ℝ) (ks ke : ℤ) (acc : ℝ) (h : ks ≤ ke + 1) :
    sumLoop f ks ke acc = acc + ∑ k ∈ Finset.Icc ks ke, f k := by
  unfold sumLoop
  obtain ⟨n, hn⟩ : ∃ n : ℕ, ke + 1 = ks + n := ⟨(ke + 1 - ks).toNat, by omega⟩
  have e1 : (ke + 1 - ks).toNat = n := by omega
  rw [e1]
  clear e1 h
  induction n generalizing ke with
  | zero =>
    have : Finset.Icc ks ke = ∅ := Finset.Icc_eq_empty (by omega)
    simp [this]
  | succ n ih =>
    rw [List.range_succ, List.foldl_append, ih (ke - 1) (by omega)]
    simp only [List.foldl_cons, List.foldl_nil]
    have e : ks + (n : ℤ) = ke := by omega
    have : Finset.Icc ks ke = insert ke (Finset.Icc ks (ke - 1)) := by
      ext x; simp only [Finset.mem_insert, Finset.mem_Icc]; omega
    rw [this, Finset.sum_insert (by simp), e]
    ring

theorem card_Icc (ks ke : ℤ) (h : ks ≤ ke) : ((Finset.Icc ks ke).card : ℝ) = ((ke - ks + 1 : ℤ) : ℝ) := by
  rw [Int.card_Icc]
  have : ((ke + 1 - ks).toNat : ℤ) = ke - ks + 1 := by omega
  exact_mod_cast this

theorem fold_sumLoop (f : ℤ → ℤ → ℝ) (ks ke js je : ℤ) (hk : ks ≤ ke) (hj : js ≤ je) :
    (List.range (ke + 1 - ks).toNat).foldl (fun (x : ℝ) (n : ℕ) => sumLoop (f (ks + (n : ℤ))) js je x) 0
      = ∑ k ∈ Finset.Icc ks ke, ∑ j ∈ Finset.Icc js je, f k j := by
  have : (fun (x : ℝ) (n : ℕ) => sumLoop (f (ks + (n : ℤ))) js je x)
      = fun (x : ℝ) (n : ℕ) => x + ∑ j ∈ Finset.Icc js je, f (ks + (n : ℤ)) j := by
    funext x n; exact sumLoop_eq _ _ _ _ (by omega)
  rw [this]
  have h := sumLoop_eq (fun k => ∑ j ∈ Finset.Icc js je, f k j) ks ke 0 (by omega)
  unfold sumLoop at h
  rw [h, zero_add]

theorem Grid.Ok.lo_le {g : Grid} (h : g.Ok) (d : Fin 3) : g.lo d ≤ (g.ax d).s := by
  have := h.ng; unfold Grid.lo; split_ifs <;> omega

theorem Grid.Ok.le_hi {g : Grid} (h : g.Ok) (d : Fin 3) : (g.ax d).e ≤ g.hi d := by
  have := h.ng; unfold Grid.hi; split_ifs <;> omega

theorem Grid.Ok.range {g : Grid} (h : g.Ok) (o : Out) (d : Fin 3) (hlu : o.l d ≤ o.u d)
    (ho : ¬ outside g o d) (F : ℕ) (hF : (g.hi d - g.lo d).toNat + 1 < F) :
    ∃ ks ke, findRange F (g.ax d) (g.lo d) (g.hi d) (o.l d) (o.u d) = some (ks, ke) ∧ ks ≤ ke ∧
      zonesIn (g.ax d) (g.lo d) (g.hi d) (o.l d) (o.u d) = Finset.Icc ks ke := by
  unfold outside at ho
  push Not at ho
  refine findRange_spec F _ _ _ _ _ (h.dx d) (h.lo_le d) (h.le_hi d) ?_ hlu ho.1 ?_ hF
  · have := h.nx d; have := h.pos d; omega
  · rw [← h.max d]; exact ho.2

theorem mean_one (ks ke : ℤ) (f : ℤ → ℝ) (h : ks ≤ ke) :
    sumLoop f ks ke 0 * (1 / ((ke - ks + 1 : ℤ) : ℝ)) = mean (Finset.Icc ks ke) f := by
  rw [sumLoop_eq _ _ _ _ (by omega), mean, card_Icc _ _ h]; ring

theorem mean_two (ks ke js je : ℤ) (f : ℤ → ℤ → ℝ) (hk : ks ≤ ke) (hj : js ≤ je) :
    (List.range (ke + 1 - ks).toNat).foldl (fun (x : ℝ) (n : ℕ) => sumLoop (f (ks + (n : ℤ))) js je x) 0
      * (1 / ((ke - ks + 1 : ℤ) : ℝ) / ((je - js + 1 : ℤ) : ℝ))
      = mean (Finset.Icc ks ke) fun k => mean (Finset.Icc js je) (f k) := by
  rw [fold_sumLoop _ _ _ _ _ hk hj]
  unfold mean
  rw [card_Icc _ _ hk, card_Icc _ _ hj, ← Finset.sum_div]
  ring

/-! ## C46: parsing -/

theorem takeWhile_colon (a b : List Char) (ha : ':' ∉ a) :
    (a ++ ':' :: b).takeWhile (· ≠ ':') = a ∧ (a ++ ':' :: b).dropWhile (· ≠ ':') = ':' :: b := by
  induction a with
  | nil => simp
  | cons c a ih =>
    have hc : c ≠ ':' := fun h => ha (by simp [h])
    obtain ⟨h1, h2⟩ := ih (fun h => ha (List.mem_cons_of_mem _ h))
    simp only [List.cons_append, List.takeWhile_cons, List.dropWhile_cons]
    simp [hc] at h1 h2 ⊢
    exact ⟨h1, h2⟩

/-- C46: `lower:upper` gives the numbers written on either side of the colon; a side that is blank keeps the
default, the end of the root Domain; limits in the right order are accepted. -/
theorem parse_range (atof : List Char → ℝ) (a b : List Char) (l0 u0 : ℝ) (ha : ':' ∉ a)
    (hlu : (if a.all Par.isSpace then l0 else atof (a.dropWhile Par.isSpace))
      ≤ if b.all Par.isSpace then u0 else atof (b.dropWhile Par.isSpace)) :
    parseSlice atof (a ++ ':' :: b) l0 u0 =
      .ok (if a.all Par.isSpace then l0 else atof (a.dropWhile Par.isSpace),
        if b.all Par.isSpace then u0 else atof (b.dropWhile Par.isSpace)) := by
  obtain ⟨h1, h2⟩ := takeWhile_colon a b ha
  have hb : ∀ s : List Char, s.dropWhile Par.isSpace ≠ [] ↔ ¬ s.all Par.isSpace = true := by
    intro s; rw [Ne, List.dropWhile_eq_nil_iff, List.all_eq_true]
  unfold parseSlice
  simp only [List.mem_append, List.mem_cons, true_or, or_true, if_true, h1, h2, List.tail_cons]
  have e1 : (if a.dropWhile Par.isSpace ≠ [] then atof (a.dropWhile Par.isSpace) else l0)
      = if a.all Par.isSpace then l0 else atof (a.dropWhile Par.isSpace) := by
    by_cases h : a.all Par.isSpace = true
    · rw [if_pos h, if_neg (by rw [hb]; simp [h])]
    · rw [if_neg h, if_pos ((hb a).mpr h)]
  have e2 : (if b.dropWhile Par.isSpace ≠ [] then atof (b.dropWhile Par.isSpace) else u0)
      = if b.all Par.isSpace then u0 else atof (b.dropWhile Par.isSpace) := by
    by_cases h : b.all Par.isSpace = true
    · rw [if_pos h, if_neg (by rw [hb]; simp [h])]
    · rw [if_neg h, if_pos ((hb b).mpr h)]
  rw [e1, e2, if_neg (not_lt.mpr hlu)]

/-- C46: a single number selects that position. -/
theorem parse_single (atof : List Char → ℝ) (a : List Char) (l0 u0 : ℝ) (ha : ':' ∉ a) :
    parseSlice atof a l0 u0 = .ok (atof a, atof a) := by
  unfold parseSlice; simp [ha]

/-- C46: reversed limits are never accepted (the program does not return; printing the message is itself
undefined), and whatever is accepted is an interval. -/
theorem parse_ordered (atof : List Char → ℝ) (a : List Char) (l0 u0 l u : ℝ)
    (h : parseSlice atof a l0 u0 = .ok (l, u)) : l ≤ u := by
  unfold parseSlice at h
  dsimp only at h
  split_ifs at h <;> simp at h <;> obtain ⟨rfl, rfl⟩ := h <;> simp_all

theorem parse_reversed (atof : List Char → ℝ) (a b : List Char) (l0 u0 : ℝ) (ha : ':' ∉ a)
    (hna : ¬ a.all Par.isSpace = true) (hnb : ¬ b.all Par.isSpace = true)
    (h : atof (b.dropWhile Par.isSpace) < atof (a.dropWhile Par.isSpace)) :
    parseSlice atof (a ++ ':' :: b) l0 u0 = .ub := by
  obtain ⟨h1, h2⟩ := takeWhile_colon a b ha
  have hb : ∀ s : List Char, ¬ s.all Par.isSpace = true → s.dropWhile Par.isSpace ≠ [] := by
    intro s hs; rw [Ne, List.dropWhile_eq_nil_iff]; rwa [List.all_eq_true] at hs
  unfold parseSlice
  simp only [List.mem_append, List.mem_cons, true_or, or_true, if_true, h1, h2, List.tail_cons]
  rw [if_pos (hb b hnb), if_pos (hb a hna), if_pos h]

/-! ## C46: the data -/

/-- C46, 3D output: all zones, unchanged. -/
theorem out3 (g : Grid) (o : Out) (hn : o.ndim = 3) :
    ∃ A, outData3 g o = .ok A ∧
      (A.n1, A.n2, A.n3) = (g.hi 0 - g.lo 0 + 1, g.hi 1 - g.lo 1 + 1, g.hi 2 - g.lo 2 + 1) ∧
      ∀ i j k, A.at' k j i = o.expr (g.lo 0 + i) (g.lo 1 + j) (g.lo 2 + k) := by
  refine ⟨_, if_neg (by simpa using hn), rfl, ?_⟩
  intro i j k
  simp only [add_comm]

theorem three (d : Fin 3) : d = 0 ∨ d = 1 ∨ d = 2 := by revert d; decide

/-- The two coordinates that are left when `d` is reduced, in the order of the array. -/
def others : Fin 3 → Fin 3 × Fin 3
  | 0 => (1, 2)
  | 1 => (0, 2)
  | 2 => (0, 1)

/-- The value of the expression in the zone with index `k` in direction `d` and `a`, `b` in the others. -/
def zone (o : Out) : Fin 3 → ℤ → ℤ → ℤ → ℝ
  | 0, k, a, b => o.expr k a b
  | 1, k, a, b => o.expr a k b
  | 2, k, a, b => o.expr a b k

/-- C46, a 2D slice of 3D data, reduced in direction `d`: if the range meets the Grid, the array has the
dimensions of the other two directions and each element is the arithmetic mean over exactly the zones whose
extent meets the range (at least one). -/
theorem out2_mean (F : ℕ) (g : Grid) (o : Out) (d : Fin 3) (hg : g.Ok) (hn : o.ndim = 2) (h3 : g.nx 2 ≠ 1)
    (hr : o.reduce d = true) (hr' : ∀ e, e ≠ d → o.reduce e = false) (hlu : o.l d ≤ o.u d)
    (ho : ¬ outside g o d) (hF : (g.hi d - g.lo d).toNat + 1 < F) :
    ∃ A, outData2 F g o = .ok (some (some A)) ∧
      (A.n1, A.n2) = (g.hi (others d).1 - g.lo (others d).1 + 1, g.hi (others d).2 - g.lo (others d).2 + 1) ∧
      (zonesIn (g.ax d) (g.lo d) (g.hi d) (o.l d) (o.u d)).Nonempty ∧
      ∀ b a, A.at' b a = mean (zonesIn (g.ax d) (g.lo d) (g.hi d) (o.l d) (o.u d))
        fun k => zone o d k (g.lo (others d).1 + a) (g.lo (others d).2 + b) := by
  obtain ⟨ks, ke, e1, e2, e3⟩ := hg.range o d hlu ho F hF
  have hne : (zonesIn (g.ax d) (g.lo d) (g.hi d) (o.l d) (o.u d)).Nonempty := by
    rw [e3]; exact Finset.nonempty_Icc.mpr e2
  unfold outData2
  rw [if_neg (by simpa using hn)]
  dsimp only
  rw [if_neg h3]
  rcases three d with rfl | rfl | rfl
  · rw [if_neg (by simp [hr' 2 (by decide)]), if_neg (by simp [hr' 1 (by decide)]), if_pos hr, if_neg ho]
    rw [e1]
    refine ⟨_, rfl, rfl, hne, ?_⟩
    intro b a
    dsimp only
    rw [mean_one _ _ _ e2, e3]
    simp only [zone, others, add_comm]
  · rw [if_neg (by simp [hr' 2 (by decide)]), if_pos hr, if_neg ho]
    rw [e1]
    refine ⟨_, rfl, rfl, hne, ?_⟩
    intro b a
    dsimp only
    rw [mean_one _ _ _ e2, e3]
    simp only [zone, others, add_comm]
  · rw [if_pos hr, if_neg ho]
    rw [e1]
    refine ⟨_, rfl, rfl, hne, ?_⟩
    intro b a
    dsimp only
    rw [mean_one _ _ _ e2, e3]
    simp only [zone, others, add_comm]

/-- A range outside the Grid gives no data. -/
theorem out2_outside (F : ℕ) (g : Grid) (o : Out) (d : Fin 3) (hn : o.ndim = 2) (h3 : g.nx 2 ≠ 1)
    (hr : o.reduce d = true) (hr' : ∀ e, e ≠ d → o.reduce e = false) (ho : outside g o d) :
    outData2 F g o = .ok (some none) := by
  unfold outData2
  rw [if_neg (by simpa using hn)]
  dsimp only
  rw [if_neg h3]
  rcases three d with rfl | rfl | rfl
  · rw [if_neg (by simp [hr' 2 (by decide)]), if_neg (by simp [hr' 1 (by decide)]), if_pos hr, if_pos ho]
  · rw [if_neg (by simp [hr' 2 (by decide)]), if_pos hr, if_pos ho]
  · rw [if_pos hr, if_pos ho]

/-- In 2D the whole plane is returned. -/
theorem out2_plane (F : ℕ) (g : Grid) (o : Out) (hn : o.ndim = 2) (h3 : g.nx 2 = 1) :
    ∃ A, outData2 F g o = .ok (some (some A)) ∧ (A.n1, A.n2) = (g.hi 0 - g.lo 0 + 1, g.hi 1 - g.lo 1 + 1) ∧
      ∀ j i, A.at' j i = o.expr (g.lo 0 + i) (g.lo 1 + j) (g.lo 2) := by
  refine ⟨_, by unfold outData2; rw [if_neg (by simpa using hn)]; dsimp only; rw [if_pos h3], rfl, ?_⟩
  intro j i; simp only [add_comm]

/-- The zones in direction 2 averaged by `OutData1`: one zone if there is only one. -/
def zones3 (g : Grid) (o : Out) : Finset ℤ :=
  if g.nx 2 = 1 then {(g.ax 2).s} else zonesIn (g.ax 2) (g.lo 2) (g.hi 2) (o.l 2) (o.u 2)

theorem findRange3_spec (F : ℕ) (g : Grid) (o : Out) (hg : g.Ok) (hlu : o.l 2 ≤ o.u 2)
    (ho : ¬ outside g o 2) (hF : (g.hi 2 - g.lo 2).toNat + 1 < F) :
    ∃ ks ke, findRange3 F g o = some (ks, ke) ∧ ks ≤ ke ∧ zones3 g o = Finset.Icc ks ke := by
  unfold findRange3 zones3
  by_cases h : g.nx 2 = 1
  · rw [if_pos h, if_pos h]
    have e1 : g.lo 2 = (g.ax 2).s := by unfold Grid.lo; rw [if_neg (by omega)]
    have e2 : g.hi 2 = (g.ax 2).s := by
      unfold Grid.hi; rw [if_neg (by omega)]; have := hg.nx 2; omega
    exact ⟨_, _, rfl, by omega, by rw [e1, e2]; simp⟩
  · rw [if_neg h, if_neg h]
    exact hg.range o 2 hlu ho F hF

/-- C46, a 1D slice along x1: the mean over the product of the selected zones in x3 and x2. -/
theorem out1_x1 (F : ℕ) (g : Grid) (o : Out) (hg : g.Ok) (hn : o.ndim = 1) (h2 : g.nx 1 ≠ 1)
    (hr : o.reduce 0 = false) (hlu : ∀ d, o.l d ≤ o.u d) (ho1 : ¬ outside g o 1) (ho2 : ¬ outside g o 2)
    (hF : ∀ d, (g.hi d - g.lo d).toNat + 1 < F) :
    ∃ A, outData1 F g o = .ok (some (some A)) ∧ A.n1 = g.hi 0 - g.lo 0 + 1 ∧
      ∀ i, A.at' i = mean (zones3 g o) fun k =>
        mean (zonesIn (g.ax 1) (g.lo 1) (g.hi 1) (o.l 1) (o.u 1)) fun j => o.expr (g.lo 0 + i) j k := by
  obtain ⟨ks, ke, e1, e2, e3⟩ := findRange3_spec F g o hg (hlu 2) ho2 (hF 2)
  obtain ⟨js, je, f1, f2, f3⟩ := hg.range o 1 (hlu 1) ho1 F (hF 1)
  unfold outData1
  rw [if_neg (by simpa using hn)]
  dsimp only
  rw [if_neg h2, if_pos hr, if_neg (by tauto), e1, f1]
  refine ⟨_, rfl, rfl, ?_⟩
  intro i
  dsimp only
  rw [mean_two ks ke js je (fun k j => o.expr (i + g.lo 0) j k) e2 f2, e3, f3, add_comm i]

/-- C46, a 1D slice along x2. -/
theorem out1_x2 (F : ℕ) (g : Grid) (o : Out) (hg : g.Ok) (hn : o.ndim = 1) (h2 : g.nx 1 ≠ 1)
    (hr0 : o.reduce 0 = true) (hr : o.reduce 1 = false) (hlu : ∀ d, o.l d ≤ o.u d) (ho0 : ¬ outside g o 0)
    (ho2 : ¬ outside g o 2) (hF : ∀ d, (g.hi d - g.lo d).toNat + 1 < F) :
    ∃ A, outData1 F g o = .ok (some (some A)) ∧ A.n1 = g.hi 1 - g.lo 1 + 1 ∧
      ∀ j, A.at' j = mean (zones3 g o) fun k =>
        mean (zonesIn (g.ax 0) (g.lo 0) (g.hi 0) (o.l 0) (o.u 0)) fun i => o.expr i (g.lo 1 + j) k := by
  obtain ⟨ks, ke, e1, e2, e3⟩ := findRange3_spec F g o hg (hlu 2) ho2 (hF 2)
  obtain ⟨js, je, f1, f2, f3⟩ := hg.range o 0 (hlu 0) ho0 F (hF 0)
  unfold outData1
  rw [if_neg (by simpa using hn)]
  dsimp only
  rw [if_neg h2, if_neg (by simp [hr0]), if_pos hr, if_neg (by tauto), e1, f1]
  refine ⟨_, rfl, rfl, ?_⟩
  intro j
  dsimp only
  rw [mean_two ks ke js je (fun k i => o.expr i (j + g.lo 1) k) e2 f2, e3, f3, add_comm j]

/-- C46, a 1D slice along x3. -/
theorem out1_x3 (F : ℕ) (g : Grid) (o : Out) (hg : g.Ok) (hn : o.ndim = 1) (h2 : g.nx 1 ≠ 1)
    (hr0 : o.reduce 0 = true) (hr1 : o.reduce 1 = true) (hr : o.reduce 2 = false) (hlu : ∀ d, o.l d ≤ o.u d)
    (ho0 : ¬ outside g o 0) (ho1 : ¬ outside g o 1) (hF : ∀ d, (g.hi d - g.lo d).toNat + 1 < F) :
    ∃ A, outData1 F g o = .ok (some (some A)) ∧ A.n1 = g.hi 2 - g.lo 2 + 1 ∧
      ∀ k, A.at' k = mean (zonesIn (g.ax 1) (g.lo 1) (g.hi 1) (o.l 1) (o.u 1)) fun j =>
        mean (zonesIn (g.ax 0) (g.lo 0) (g.hi 0) (o.l 0) (o.u 0)) fun i => o.expr i j (g.lo 2 + k) := by
  obtain ⟨ks, ke, e1, e2, e3⟩ := hg.range o 1 (hlu 1) ho1 F (hF 1)
  obtain ⟨js, je, f1, f2, f3⟩ := hg.range o 0 (hlu 0) ho0 F (hF 0)
  unfold outData1
  rw [if_neg (by simpa using hn)]
  dsimp only
  rw [if_neg h2, if_neg (by simp [hr0]), if_neg (by simp [hr1]), if_pos hr, if_neg (by tauto), e1, f1]
  refine ⟨_, rfl, rfl, ?_⟩
  intro k
  dsimp only
  rw [mean_two ks ke js je (fun j i => o.expr i j (k + g.lo 2)) e2 f2, e3, f3, add_comm k]

/-- In 1D the whole line is returned. -/
theorem out1_line (F : ℕ) (g : Grid) (o : Out) (hn : o.ndim = 1) (h2 : g.nx 1 = 1) :
    ∃ A, outData1 F g o = .ok (some (some A)) ∧ A.n1 = g.hi 0 - g.lo 0 + 1 ∧
      ∀ i, A.at' i = o.expr (g.lo 0 + i) (g.lo 1) (g.lo 2) := by
  refine ⟨_, by unfold outData1; rw [if_neg (by simpa using hn)]; dsimp only; rw [if_pos h2], rfl, ?_⟩
  intro i; simp only [add_comm]

/-! The hypotheses are met: 8 x 8 x 8 zones on the unit cube with 4 ghost zones; the range 0.3:0.6 in x3 selects
zones 2 to 4 of 0 to 7. -/
def g0 : Grid := ⟨fun _ => ⟨0, 1/8, 4, 11⟩, fun _ => 8, fun _ => 1, false, 4⟩
example : g0.Ok :=
  ⟨fun _ => by norm_num [g0], fun _ => by norm_num [g0, fcPos], fun _ => by norm_num [g0],
    fun _ => by norm_num [g0], by norm_num [g0]⟩
example : ¬ outside g0 ⟨2, fun _ => 0.3, fun _ => 0.6, fun d => d = 2, fun _ _ _ => 0⟩ 2 := by
  unfold outside; norm_num [g0]
example : zonesIn (g0.ax 2) 4 11 0.3 0.6 = {6, 7, 8} := by
  have h : ∀ k : ℤ, 4 ≤ k → k ≤ 11 → ((fcPos (g0.ax 2) k ≤ 0.6 ∧ 0.3 < fcPos (g0.ax 2) (k + 1)) ↔
      (k = 6 ∨ k = 7 ∨ k = 8)) := by
    intro k h1 h2
    have : k = 4 ∨ k = 5 ∨ k = 6 ∨ k = 7 ∨ k = 8 ∨ k = 9 ∨ k = 10 ∨ k = 11 := by omega
    rcases this with rfl | rfl | rfl | rfl | rfl | rfl | rfl | rfl <;> norm_num [fcPos, g0]
  ext k
  simp only [zonesIn, Finset.mem_filter, Finset.mem_Icc, Finset.mem_insert, Finset.mem_singleton]
  constructor
  · rintro ⟨⟨h1, h2⟩, h3⟩; exact (h k h1 h2).mp h3
  · intro hk
    have h1 : 4 ≤ k ∧ k ≤ 11 := by omega
    exact ⟨h1, (h k h1.1 h1.2).mpr hk⟩

end
end Athena.Slice
