import Verif.Io.Image
import Verif.Utils.Props
import Mathlib.Tactic.Ring
import Mathlib.Tactic.Linarith
import Mathlib.Tactic.FieldSimp
import Mathlib.Tactic.Positivity
import Mathlib.Tactic.NormNum
import Mathlib.Tactic.IntervalCases

/-!
# C95: images show the data
-/

namespace Athena.Image
open Athena.Pos (toInt)

/-! ## Specification -/

/-- The array has `nx2` rows of `nx1` values. -/
def Rect (nx1 nx2 : ℕ) (data : List (List ℝ)) : Prop := 0 < nx1 ∧ 0 < nx2 ∧ data.length = nx2 ∧ ∀ row ∈ data, row.length = nx1

/-- The value in row `j` and column `i` is `x`. -/
def At (data : List (List ℝ)) (j i : ℕ) (x : ℝ) : Prop := ∃ row, data[j]? = some row ∧ row[i]? = some x

/-- `lo` and `hi` are the ends of the scale: those of the input file, or the extremes of the data. -/
def Scale (smin smax : Option ℝ) (data : List (List ℝ)) (lo hi : ℝ) : Prop :=
  (match smin with
    | some a => lo = a
    | none => lo ∈ data.flatten ∧ ∀ x ∈ data.flatten, lo ≤ x) ∧
  (match smax with
    | some a => hi = a
    | none => hi ∈ data.flatten ∧ ∀ x ∈ data.flatten, x ≤ hi)

/-- The width of one of the 256 shades. -/
noncomputable def width (lo hi : ℝ) : ℝ := (hi - lo) * (1 + 1 / 8388608) / 256

/-- `g` is the shade of the value `x`: between black, 0, and white, 255; black at and below `lo`, white at and above `hi`, and in between the shade tells the
value to within one 256th of the scale. -/
def Shade (lo hi x : ℝ) (g : ℤ) : Prop :=
  0 ≤ g ∧ g ≤ 255 ∧ (x ≤ lo → g = 0) ∧ (hi ≤ x → g = 255) ∧ (lo ≤ x → x ≤ hi → lo + g * width lo hi ≤ x ∧ x < lo + (g + 1) * width lo hi)

/-- `v` is the linear interpolation of the colour `c` of the table at the position `t` between 0 and 255. -/
def Lerp (p : List ℕ) (c : ℕ) (t v : ℝ) : Prop :=
  ∃ (n : ℕ) (a b : ℕ), n < 255 ∧ (n : ℝ) ≤ t ∧ t ≤ n + 1 ∧ p[3 * n + c]? = some a ∧ p[3 * (n + 1) + c]? = some b ∧
    v = ((n + 1 - t) * a + (t - n) * b) / 1000000000

/-- The position of the value `x` in the table: from 0 at `lo` to 255 at `hi`, the ends beyond. -/
noncomputable def place (lo hi x : ℝ) : ℝ := max 0 (min 255 ((x - lo) / (hi - lo) * 255))

/-! ## Lemmas -/

theorem flatten_get {α : Type} {m : ℕ} (L : List (List α)) (h : ∀ r ∈ L, r.length = m) {n i : ℕ} (hi : i < m) :
    L.flatten[n * m + i]? = (L[n]?).bind (·[i]?) := by
  induction L generalizing n with
  | nil => simp
  | cons r L ih =>
    have hr := h r List.mem_cons_self
    rw [List.flatten_cons]
    cases n with
    | zero =>
      rw [List.getElem?_append_left (by omega)]
      simp
    | succ n =>
      have e : (n + 1) * m + i = r.length + (n * m + i) := by rw [hr]; ring
      rw [e, List.getElem?_append_right (by omega), Nat.add_sub_cancel_left, ih fun r hr => h r (List.mem_cons_of_mem _ hr)]
      simp

theorem emit_ok {f : ℝ → Res (List ℤ)} {g : ℝ → List ℤ} (l : List ℝ) (h : ∀ x ∈ l, f x = .ok (g x)) : emit f l = .ok (l.map g).flatten := by
  induction l with
  | nil => rfl
  | cons x l ih =>
    unfold emit
    rw [h x List.mem_cons_self, ih fun y hy => h y (List.mem_cons_of_mem _ hy)]
    simp

theorem at_mem {data : List (List ℝ)} {j i : ℕ} {x : ℝ} (h : At data j i x) : x ∈ data.flatten := by
  obtain ⟨row, h1, h2⟩ := h
  exact List.mem_flatten.2 ⟨row, List.mem_of_getElem? h1, List.mem_of_getElem? h2⟩

/-- The values in the order of the file. -/
theorem rows_get {nx1 nx2 : ℕ} {data : List (List ℝ)} (h : Rect nx1 nx2 data) {j i : ℕ} {x : ℝ} (hx : At data j i x) :
    data.reverse.flatten[(nx2 - 1 - j) * nx1 + i]? = some x := by
  obtain ⟨row, h1, h2⟩ := hx
  have hj : j < nx2 := by rw [← h.2.2.1]; exact (List.getElem?_eq_some_iff.1 h1).1
  have hi : i < nx1 := by rw [← h.2.2.2 row (List.mem_of_getElem? h1)]; exact (List.getElem?_eq_some_iff.1 h2).1
  rw [flatten_get data.reverse (m := nx1) (fun r hr => h.2.2.2 r (List.mem_reverse.1 hr)) hi]
  rw [List.getElem?_reverse (by rw [h.2.2.1]; omega), h.2.2.1]
  have : nx2 - 1 - (nx2 - 1 - j) = j := by omega
  rw [this, h1]
  exact h2

theorem rows_length {nx1 nx2 : ℕ} {data : List (List ℝ)} (h : Rect nx1 nx2 data) : data.flatten.length = nx1 * nx2 := by
  have : ∀ L : List (List ℝ), (∀ r ∈ L, r.length = nx1) → L.flatten.length = nx1 * L.length := by
    intro L
    induction L with
    | nil => simp
    | cons r L ih =>
      intro hL
      rw [List.flatten_cons, List.length_append, hL r List.mem_cons_self, ih fun r hr => hL r (List.mem_cons_of_mem _ hr), List.length_cons]
      ring
  rw [this data h.2.2.2, h.2.2.1]

theorem rev_length {nx1 nx2 : ℕ} {data : List (List ℝ)} (h : Rect nx1 nx2 data) : data.reverse.flatten.length = nx1 * nx2 := by
  apply rows_length
  exact ⟨h.1, h.2.1, by rw [List.length_reverse]; exact h.2.2.1, fun r hr => h.2.2.2 r (List.mem_reverse.1 hr)⟩

theorem rev_mem {data : List (List ℝ)} {x : ℝ} : x ∈ data.reverse.flatten ↔ x ∈ data.flatten := by
  simp only [List.mem_flatten, List.mem_reverse]

theorem scale_ok {nx1 nx2 : ℕ} {data : List (List ℝ)} (h : Rect nx1 nx2 data) (smin smax : Option ℝ) :
    ∃ r, Utils.minmax2 data = .ok r ∧ Scale smin smax data (smin.getD r.1) (smax.getD r.2) := by
  obtain ⟨row, rows, e⟩ : ∃ row rows, data = row :: rows := by
    cases data with
    | nil => have := h.2.2.1; have := h.2.1; simp at *; omega
    | cons row rows => exact ⟨row, rows, rfl⟩
  have hne : row ≠ [] := by
    have h1 := h.2.2.2 row (by rw [e]; exact List.mem_cons_self)
    have := h.1
    rintro rfl
    simp at h1
    omega
  obtain ⟨r, h1, h2⟩ := Utils.minmax2_correct row rows hne
  rw [← e] at h1 h2
  refine ⟨r, h1, ?_, ?_⟩
  · cases smin with
    | some a => rfl
    | none => exact ⟨h2.1, fun x hx => (h2.2.2 x hx).1⟩
  · cases smax with
    | some a => rfl
    | none => exact ⟨h2.2.1, fun x hx => (h2.2.2 x hx).2⟩

theorem scale_unique {smin smax : Option ℝ} {data : List (List ℝ)} {lo hi lo' hi' : ℝ} (h : Scale smin smax data lo hi)
    (h' : Scale smin smax data lo' hi') : lo = lo' ∧ hi = hi' := by
  constructor
  · cases smin with
    | some a => exact h.1.trans h'.1.symm
    | none => exact le_antisymm (h.1.2 _ h'.1.1) (h'.1.2 _ h.1.1)
  · cases smax with
    | some a => exact h.2.trans h'.2.symm
    | none => exact le_antisymm (h'.2.2 _ h.2.1) (h.2.2 _ h'.2.1)

/-- The pixel of a value that is not too far from the scale. -/
theorem gray_ok {lo hi x : ℝ} (hlt : lo < hi) (h1 : -2147483648 * width lo hi ≤ x - lo) (h2 : x - lo < 2147483648 * width lo hi) :
    ∃ g, gray lo (256 / ((hi - lo) * (1 + fltEps))) x = .ok [g] ∧ Shade lo hi x g := by
  have hw : 0 < width lo hi := by unfold width; have : 0 < hi - lo := by linarith
                                  positivity
  obtain ⟨w, hwd⟩ : ∃ w, w = width lo hi := ⟨_, rfl⟩
  obtain ⟨t, ht⟩ : ∃ t, t = (x - lo) / w := ⟨_, rfl⟩
  have hx : x = lo + t * w := by rw [ht]; field_simp [(hwd ▸ hw).ne']; ring
  rw [← hwd] at h1 h2 hw
  have e : 256 / ((hi - lo) * (1 + fltEps)) * (x - lo) = t := by
    rw [ht, hwd]
    unfold width fltEps
    have : 0 < hi - lo := by linarith
    field_simp
  have t1 : -2147483648 ≤ t := by rw [ht, le_div_iff₀ hw]; exact h1
  have t2 : t < 2147483648 := by rw [ht, div_lt_iff₀ hw]; exact h2
  have hhi : hi = lo + 256 / (1 + 1 / 8388608) * w := by rw [hwd]; unfold width; field_simp; ring
  unfold gray
  rw [e]
  by_cases h0 : 0 ≤ t
  · obtain ⟨f, hf⟩ : ∃ f, f = ⌊t⌋ := ⟨_, rfl⟩
    have f0 : 0 ≤ f := by rw [hf]; exact Int.floor_nonneg.2 h0
    have f1 : (f : ℝ) ≤ t := by rw [hf]; exact Int.floor_le t
    have f2 : t < f + 1 := by rw [hf]; exact Int.lt_floor_add_one t
    have fB : f ≤ 2147483647 := by
      have : (f : ℝ) < ((2147483648 : ℤ) : ℝ) := lt_of_le_of_lt f1 (by push_cast; exact t2)
      have : f < 2147483648 := by exact_mod_cast this
      omega
    rw [Pos.toInt_floor f0 fB f1 f2]
    simp only [Res.bind_ok, Res.pure_eq_ok]
    have g1 : (if f > 0 then f else 0) = f := by split_ifs <;> omega
    rw [g1]
    refine ⟨_, rfl, ?_⟩
    have w0 : x ≤ lo → f = 0 := by
      intro hxl
      have : t * w ≤ 0 := by linarith
      have : t ≤ 0 := by by_contra hc; push Not at hc; nlinarith
      have : (f : ℝ) < ((1 : ℤ) : ℝ) := by push_cast; linarith
      have : f < 1 := by exact_mod_cast this
      omega
    have w1 : hi ≤ x → 255 ≤ f := by
      intro hxh
      have : 256 / (1 + 1 / 8388608) * w ≤ t * w := by linarith
      have : 256 / (1 + 1 / 8388608) ≤ t := le_of_mul_le_mul_right this hw
      have : ((255 : ℤ) : ℝ) ≤ t := le_trans (by norm_num) this
      rw [hf]; exact Int.le_floor.2 this
    have w2 : x ≤ hi → f ≤ 255 := by
      intro hxh
      have : t * w ≤ 256 / (1 + 1 / 8388608) * w := by linarith
      have : t ≤ 256 / (1 + 1 / 8388608) := le_of_mul_le_mul_right this hw
      have : (f : ℝ) < ((256 : ℤ) : ℝ) := lt_of_le_of_lt (f1.trans this) (by norm_num)
      have : f < 256 := by exact_mod_cast this
      omega
    refine ⟨by split_ifs <;> omega, by split_ifs <;> omega, ?_, ?_, ?_⟩
    · intro hxl; rw [w0 hxl]; rfl
    · intro hxh; rw [if_neg (by have := w1 hxh; omega)]
    · intro _ hxh
      have e2 : (if f < 255 then f else 255) = f := by have := w2 hxh; split_ifs <;> omega
      rw [e2, ← hwd, hx]
      have := mul_le_mul_of_nonneg_right f1 hw.le
      have := mul_lt_mul_of_pos_right f2 hw
      exact ⟨by linarith, by linarith⟩
  · have c0 : ⌈t⌉ ≤ 0 := Int.ceil_le.2 (by push_cast; linarith)
    have c1 : -2147483648 ≤ ⌈t⌉ := by
      have : ((-2147483648 : ℤ) : ℝ) ≤ (⌈t⌉ : ℝ) := le_trans (by push_cast; exact t1) (Int.le_ceil t)
      exact_mod_cast this
    have : toInt t = .ok ⌈t⌉ := by
      unfold toInt
      simp only [if_neg h0]
      rw [if_pos ⟨c1, by omega⟩]
    rw [this]
    simp only [Res.bind_ok, Res.pure_eq_ok]
    have g1 : (if ⌈t⌉ > 0 then ⌈t⌉ else 0) = 0 := by split_ifs <;> omega
    rw [g1, if_pos (by norm_num)]
    have hxl : x < lo := by
      have : t * w < 0 := mul_neg_of_neg_of_pos (by linarith) hw
      linarith
    exact ⟨0, rfl, le_rfl, by norm_num, fun _ => rfl, fun h => absurd h (by linarith), fun h => absurd h (by linarith)⟩

/-! ## Gray images -/

/-- **C95**, gray images with a scale that is not empty: one byte for each value, the last row first, each the shade of its value.  Required for values outside a scale
given in the input file: not further away than 2^31 shades.  Missing: values beyond, where the conversion is undefined. -/
theorem pgm_image_partial {nx1 nx2 : ℕ} {data : List (List ℝ)} (h : Rect nx1 nx2 data) {smin smax : Option ℝ} {lo hi : ℝ} (hs : Scale smin smax data lo hi)
    (hlt : lo < hi) (hr : ∀ x ∈ data.flatten, -2147483648 * width lo hi ≤ x - lo ∧ x - lo < 2147483648 * width lo hi) :
    ∃ img, pgm smin smax data = .ok img ∧ img.nx1 = nx1 ∧ img.nx2 = nx2 ∧ img.bytes.length = nx1 * nx2 ∧
      ∀ j i x, At data j i x → ∃ g, img.bytes[(nx2 - 1 - j) * nx1 + i]? = some g ∧ Shade lo hi x g := by
  obtain ⟨r, hr1, hr2⟩ := scale_ok h smin smax
  obtain ⟨e1, e2⟩ := scale_unique hr2 hs
  have hg : ∀ x ∈ data.flatten, ∃ g, gray lo (256 / ((hi - lo) * (1 + fltEps))) x = .ok [g] ∧ Shade lo hi x g :=
    fun x hx => gray_ok hlt (hr x hx).1 (hr x hx).2
  choose! g hg1 hg2 using hg
  have hem := emit_ok (f := gray lo (256 / ((hi - lo) * (1 + fltEps)))) (g := fun x => [g x]) data.reverse.flatten fun x hx => hg1 x (rev_mem.1 hx)
  have hpos : (hi - lo) * (1 + fltEps) > 0 := by
    have : 0 < hi - lo := by linarith
    unfold fltEps; positivity
  have hfl : (data.reverse.flatten.map fun x => [g x]).flatten = data.reverse.flatten.map g := by
    generalize data.reverse.flatten = l
    induction l with
    | nil => rfl
    | cons x l ih => simp only [List.map_cons, List.flatten_cons, ih, List.cons_append, List.nil_append]
  rw [hfl] at hem
  refine ⟨⟨(data.headD []).length, data.length, data.reverse.flatten.map g⟩, ?_, ?_, h.2.2.1, ?_, ?_⟩
  · unfold pgm
    rw [hr1]
    simp only [Res.bind_ok, e1, e2]
    rw [if_pos hpos, hem]
    rfl
  · cases data with
    | nil => have := h.2.2.1; have := h.2.1; simp at *; omega
    | cons row rows => exact h.2.2.2 row List.mem_cons_self
  · rw [List.length_map]; exact rev_length h
  · intro j i x hx
    refine ⟨g x, ?_, hg2 x (at_mem hx)⟩
    rw [List.getElem?_map, rows_get h hx]
    rfl

/-- **C95**, gray images scaled to the data: for every array that is not constant the image is written, least values are black, greatest are white, and each byte tells
its value to within one 256th of the range. -/
theorem pgm_auto {nx1 nx2 : ℕ} {data : List (List ℝ)} (h : Rect nx1 nx2 data) {lo hi : ℝ} (hs : Scale none none data lo hi) (hlt : lo < hi) :
    ∃ img, pgm none none data = .ok img ∧ img.nx1 = nx1 ∧ img.nx2 = nx2 ∧ img.bytes.length = nx1 * nx2 ∧
      ∀ j i x, At data j i x → ∃ g, img.bytes[(nx2 - 1 - j) * nx1 + i]? = some g ∧ Shade lo hi x g := by
  apply pgm_image_partial h hs hlt
  intro x hx
  have h1 := hs.1.2 x hx
  have h2 := hs.2.2 x hx
  unfold width
  constructor <;> linarith

/-- **C95**: an empty or inverted scale gives a black image of the same size. -/
theorem pgm_flat {nx1 nx2 : ℕ} {data : List (List ℝ)} (h : Rect nx1 nx2 data) {smin smax : Option ℝ} {lo hi : ℝ} (hs : Scale smin smax data lo hi) (hlt : hi ≤ lo) :
    pgm smin smax data = .ok ⟨nx1, nx2, List.replicate (nx1 * nx2) 0⟩ := by
  obtain ⟨r, hr1, hr2⟩ := scale_ok h smin smax
  obtain ⟨e1, e2⟩ := scale_unique hr2 hs
  have hpos : ¬ (hi - lo) * (1 + fltEps) > 0 := by
    have h1 : hi - lo ≤ 0 := by linarith
    have : (0 : ℝ) ≤ 1 + fltEps := by unfold fltEps; positivity
    have := mul_nonpos_of_nonpos_of_nonneg h1 this
    linarith
  have hem := emit_ok (f := fun _ => .ok [0]) (g := fun _ => [0]) data.flatten fun x hx => rfl
  have hfl : ∀ l : List ℝ, (l.map fun _ => [(0 : ℤ)]).flatten = List.replicate l.length 0 := by
    intro l
    induction l with
    | nil => rfl
    | cons x l ih => simp only [List.map_cons, List.flatten_cons, ih, List.cons_append, List.nil_append, List.length_cons, List.replicate_succ]
  unfold pgm
  rw [hr1]
  simp only [Res.bind_ok, e1, e2]
  rw [if_neg hpos, hem, hfl, rows_length h]
  have : (data.headD []).length = nx1 := by
    cases data with
    | nil => have := h.2.2.1; have := h.2.1; simp at *; omega
    | cons row rows => exact h.2.2.2 row List.mem_cons_self
  rw [this, h.2.2.1]
  rfl

/-- Greater values are not darker. -/
theorem shade_mono {lo hi x y : ℝ} {g k : ℤ} (hlt : lo < hi) (hx : Shade lo hi x g) (hy : Shade lo hi y k) (h : x ≤ y) : g ≤ k := by
  obtain ⟨a1, a2, a3, a4, a5⟩ := hx
  obtain ⟨b1, b2, b3, b4, b5⟩ := hy
  by_cases c1 : x ≤ lo
  · rw [a3 c1]; exact b1
  by_cases c2 : hi ≤ y
  · rw [b4 c2]; exact a2
  push Not at c1 c2
  have h1 := (a5 (by linarith) (by linarith)).1
  have h2 := (b5 (by linarith) (by linarith)).2
  have hw : 0 < width lo hi := by unfold width; have : 0 < hi - lo := by linarith
                                  positivity
  have : (g : ℝ) * width lo hi < (k + 1) * width lo hi := by linarith
  have : (g : ℝ) < ((k + 1 : ℤ) : ℝ) := by push_cast; exact lt_of_mul_lt_mul_right this hw.le
  have : g < k + 1 := by exact_mod_cast this
  omega

/-- **C95 is false for gray images** with a scale given in the input file: a value far above the scale is not mapped to white, its conversion is undefined. -/
theorem pgm_scale_false : ∃ data, Rect 1 1 data ∧ pgm (some 0) (some (1 / 1000000000)) data = .ub := by
  refine ⟨[[1]], ⟨by norm_num, by norm_num, rfl, by simp⟩, ?_⟩
  have h : Rect 1 1 [[(1 : ℝ)]] := ⟨by norm_num, by norm_num, rfl, by simp⟩
  unfold pgm
  obtain ⟨r, hr1, -⟩ := scale_ok h none none
  rw [hr1]
  simp only [Res.bind_ok, Option.getD_some]
  rw [if_pos (by unfold fltEps; norm_num)]
  have : toInt (256 / ((1 / 1000000000 - 0) * (1 + fltEps)) * (1 - 0)) = .ub := by
    unfold toInt
    have h0 : (0 : ℝ) ≤ 256 / ((1 / 1000000000 - 0) * (1 + fltEps)) * (1 - 0) := by unfold fltEps; norm_num
    simp only [if_pos h0]
    rw [if_neg]
    rintro ⟨-, h⟩
    have h1 : ((2147483648 : ℤ) : ℝ) ≤ 256 / ((1 / 1000000000 - 0) * (1 + fltEps)) * (1 - 0) := by unfold fltEps; norm_num
    have := Int.le_floor.2 h1
    omega
  simp only [List.reverse_cons, List.reverse_nil, List.nil_append, List.flatten_cons, List.flatten_nil, List.append_nil, emit, gray, this]
  rfl

/-! ## Colour images -/

theorem getRGB_good {name : List Char} {p : List ℕ} (h : getRGB name = .ok p) : p.length = 768 ∧ ∀ v ∈ p, v ≤ 1000000000 := by
  unfold getRGB at h
  cases e : tables.find? (fun t => t.1 = name) with
  | none => rw [e] at h; cases h
  | some t =>
    rw [e] at h
    injection h with h
    have := tables_good t (List.mem_of_find?_eq_some e)
    rw [h] at this
    unfold good at this
    rw [Bool.and_eq_true, List.all_eq_true] at this
    exact ⟨by simpa using this.1, fun v hv => by simpa using this.2 v hv⟩

theorem rgbAt_ok {p : List ℕ} (h : p.length = 768 ∧ ∀ v ∈ p, v ≤ 1000000000) {k : ℕ} (hk : k < 768) :
    ∃ a : ℕ, p[k]? = some a ∧ a ≤ 1000000000 ∧ rgbAt p k = .ok ((a : ℝ) / 1000000000) := by
  have hl : k < p.length := by omega
  refine ⟨p[k], List.getElem?_eq_getElem hl, h.2 _ (List.getElem_mem hl), ?_⟩
  unfold rgbAt
  rw [List.getElem?_eq_getElem hl]

theorem toInt_unit {v : ℝ} (h0 : 0 ≤ v) (h1 : v ≤ 1) : toInt (v * 255) = .ok ⌊255 * v⌋ ∧ 0 ≤ ⌊255 * v⌋ ∧ ⌊255 * v⌋ ≤ 255 := by
  have a : 0 ≤ ⌊255 * v⌋ := Int.floor_nonneg.2 (by positivity)
  have b : ⌊255 * v⌋ ≤ 255 := by
    have : ((⌊255 * v⌋ : ℤ) : ℝ) ≤ ((255 : ℤ) : ℝ) := le_trans (Int.floor_le _) (by push_cast; linarith)
    exact_mod_cast this
  refine ⟨?_, a, b⟩
  rw [mul_comm]
  exact Pos.toInt_floor a (by omega) (Int.floor_le _) (Int.lt_floor_add_one _)

theorem lerp_unit {p : List ℕ} (h : p.length = 768 ∧ ∀ v ∈ p, v ≤ 1000000000) {c : ℕ} {t v : ℝ} (hl : Lerp p c t v) : 0 ≤ v ∧ v ≤ 1 := by
  obtain ⟨n, a, b, -, h1, h2, ha, hb, rfl⟩ := hl
  have ha' : (a : ℝ) ≤ 1000000000 := by exact_mod_cast h.2 a (List.mem_of_getElem? ha)
  have hb' : (b : ℝ) ≤ 1000000000 := by exact_mod_cast h.2 b (List.mem_of_getElem? hb)
  have u : 0 ≤ n + 1 - t := by linarith
  have w : 0 ≤ t - n := by linarith
  have ha0 : (0 : ℝ) ≤ a := by positivity
  have hb0 : (0 : ℝ) ≤ b := by positivity
  refine ⟨by positivity, ?_⟩
  rw [div_le_one (by norm_num)]
  have := mul_le_mul_of_nonneg_left ha' u
  have := mul_le_mul_of_nonneg_left hb' w
  linarith

/-- The three bytes of a pixel. -/
theorem rgb_ok {p : List ℕ} (h : p.length = 768 ∧ ∀ v ∈ p, v ≤ 1000000000) {lo hi x : ℝ} (hne : lo ≠ hi) :
    ∃ v : ℕ → ℝ, computeRgb p lo hi x = .ok [⌊255 * v 0⌋, ⌊255 * v 1⌋, ⌊255 * v 2⌋] ∧ ∀ c, c < 3 → Lerp p c (place lo hi x) (v c) := by
  obtain ⟨t, ht⟩ : ∃ t, t = (x - lo) * 255 / (hi - lo) := ⟨_, rfl⟩
  have hpl : place lo hi x = max 0 (min 255 t) := by unfold place; rw [ht]; congr 2; ring
  unfold computeRgb
  rw [if_neg hne]
  simp only [← ht]
  by_cases hout : t ≤ 0 ∨ t ≥ 255
  · rw [if_pos hout]
    by_cases h0 : t ≤ 0
    · have hp0 : place lo hi x = 0 := by rw [hpl, min_eq_right (by linarith), max_eq_left h0]
      rw [hp0, if_pos h0]
      have key : ∀ c, c < 3 → ∃ v : ℝ, edge p 0 c = .ok ⌊255 * v⌋ ∧ Lerp p c 0 v := by
        intro c hc
        obtain ⟨a, ha, ha1, ha2⟩ := rgbAt_ok h (k := 0 * 3 + c) (by omega)
        obtain ⟨b, hb, -, -⟩ := rgbAt_ok h (k := 3 * (0 + 1) + c) (by omega)
        have hl : Lerp p c 0 ((a : ℝ) / 1000000000) :=
          ⟨0, a, b, by norm_num, by norm_num, by norm_num, by simpa using ha, hb, by push_cast; ring⟩
        refine ⟨_, ?_, hl⟩
        have hu := lerp_unit h hl
        unfold edge
        rw [ha2, Res.bind_ok, (toInt_unit hu.1 hu.2).1]
      choose! v hv1 hv2 using key
      refine ⟨v, ?_, hv2⟩
      rw [hv1 0 (by norm_num), hv1 1 (by norm_num), hv1 2 (by norm_num)]
      rfl
    · have h1 : 255 ≤ t := hout.resolve_left h0
      have hp0 : place lo hi x = 255 := by rw [hpl, min_eq_left h1]; norm_num
      rw [hp0, if_neg h0]
      have key : ∀ c, c < 3 → ∃ v : ℝ, edge p 255 c = .ok ⌊255 * v⌋ ∧ Lerp p c 255 v := by
        intro c hc
        obtain ⟨a, ha, ha1, ha2⟩ := rgbAt_ok h (k := 255 * 3 + c) (by omega)
        obtain ⟨b, hb, -, -⟩ := rgbAt_ok h (k := 3 * 254 + c) (by omega)
        have hl : Lerp p c 255 ((a : ℝ) / 1000000000) :=
          ⟨254, b, a, by norm_num, by norm_num, by norm_num, hb, ha, by push_cast; ring⟩
        refine ⟨_, ?_, hl⟩
        have hu := lerp_unit h hl
        unfold edge
        rw [ha2, Res.bind_ok, (toInt_unit hu.1 hu.2).1]
      choose! v hv1 hv2 using key
      refine ⟨v, ?_, hv2⟩
      rw [hv1 0 (by norm_num), hv1 1 (by norm_num), hv1 2 (by norm_num)]
      rfl
  · rw [if_neg hout]
    push Not at hout
    obtain ⟨h0, h1⟩ := hout
    have hp0 : place lo hi x = t := by rw [hpl, min_eq_right h1.le, max_eq_right h0.le]
    rw [hp0]
    obtain ⟨f, hf⟩ : ∃ f, f = ⌊t⌋ := ⟨_, rfl⟩
    have f0 : 0 ≤ f := by rw [hf]; exact Int.floor_nonneg.2 h0.le
    have f1 : (f : ℝ) ≤ t := by rw [hf]; exact Int.floor_le t
    have f2 : t < f + 1 := by rw [hf]; exact Int.lt_floor_add_one t
    have fB : f < 255 := by
      have : (f : ℝ) < ((255 : ℤ) : ℝ) := lt_of_le_of_lt f1 (by push_cast; exact h1)
      exact_mod_cast this
    rw [Pos.toInt_floor f0 (by omega) f1 f2, Res.bind_ok]
    obtain ⟨n, rfl⟩ := Int.eq_ofNat_of_zero_le f0
    have hn : n < 255 := by omega
    simp only [Int.cast_natCast] at f1 f2
    have key : ∀ c, c < 3 → ∃ v : ℝ, mix p t n c = .ok ⌊255 * v⌋ ∧ Lerp p c t v := by
      intro c hc
      obtain ⟨a, ha, ha1, ha2⟩ := rgbAt_ok h (k := n * 3 + c) (by omega)
      obtain ⟨b, hb, hb1, hb2⟩ := rgbAt_ok h (k := n * 3 + c + 3) (by omega)
      have hl : Lerp p c t (((n + 1 - t) * a + (t - n) * b) / 1000000000) :=
        ⟨n, a, b, hn, f1, f2.le, by rw [mul_comm]; exact ha, by rw [← hb]; congr 1; ring, rfl⟩
      refine ⟨_, ?_, hl⟩
      have hu := lerp_unit h hl
      unfold mix derAt
      simp only [Int.toNat_natCast]
      rw [ha2, Res.bind_ok, if_pos (by omega), hb2, Res.bind_ok, Res.bind_ok, Res.pure_eq_ok, Res.bind_ok, ← (toInt_unit hu.1 hu.2).1]
      congr 1
      push_cast
      ring
    choose! v hv1 hv2 using key
    refine ⟨v, ?_, hv2⟩
    rw [hv1 0 (by norm_num), hv1 1 (by norm_num), hv1 2 (by norm_num)]
    rfl

theorem ppm_bytes {nx1 nx2 : ℕ} {data : List (List ℝ)} (h : Rect nx1 nx2 data) {name : List Char} {p : List ℕ} (hn : getRGB name = .ok p)
    {smin smax : Option ℝ} {lo hi : ℝ} (hs : Scale smin smax data lo hi) {g : ℝ → List ℤ} (hg : ∀ x ∈ data.flatten, computeRgb p lo hi x = .ok (g x))
    (hl : ∀ x ∈ data.flatten, (g x).length = 3) :
    ∃ img, ppm name smin smax data = .ok img ∧ img.nx1 = nx1 ∧ img.nx2 = nx2 ∧ img.bytes.length = 3 * (nx1 * nx2) ∧
      ∀ j i x, At data j i x → ∀ c, c < 3 → img.bytes[((nx2 - 1 - j) * nx1 + i) * 3 + c]? = (g x)[c]? := by
  obtain ⟨r, hr1, hr2⟩ := scale_ok h smin smax
  obtain ⟨e1, e2⟩ := scale_unique hr2 hs
  have hem := emit_ok (f := computeRgb p lo hi) (g := g) data.reverse.flatten fun x hx => hg x (rev_mem.1 hx)
  have hl3 : ∀ q ∈ data.reverse.flatten.map g, q.length = 3 := by
    intro q hq
    obtain ⟨x, hx, rfl⟩ := List.mem_map.1 hq
    exact hl x (rev_mem.1 hx)
  refine ⟨⟨(data.headD []).length, data.length, (data.reverse.flatten.map g).flatten⟩, ?_, ?_, h.2.2.1, ?_, ?_⟩
  · unfold ppm
    rw [hn, Res.bind_ok, hr1]
    simp only [Res.bind_ok, e1, e2]
    rw [hem]
    rfl
  · cases data with
    | nil => have := h.2.2.1; have := h.2.1; simp at *; omega
    | cons row rows => exact h.2.2.2 row List.mem_cons_self
  · have : ∀ L : List (List ℤ), (∀ q ∈ L, q.length = 3) → L.flatten.length = 3 * L.length := by
      intro L
      induction L with
      | nil => simp
      | cons q L ih =>
        intro hL
        rw [List.flatten_cons, List.length_append, hL q List.mem_cons_self, ih fun r hr => hL r (List.mem_cons_of_mem _ hr), List.length_cons]
        ring
    rw [this _ hl3, List.length_map, rev_length h]
  · intro j i x hx c hc
    rw [flatten_get _ hl3 hc, List.getElem?_map, rows_get h hx]
    rfl

/-- **C95**, colour images: for every palette, every scale whose ends differ (also an inverted one) and all values, the image has three bytes for each value, the last row
first: red, green and blue, each 255 times the colour interpolated in the table at the position of the value in the scale, the end colours for values beyond, rounded down;
all lie between 0 and 255. -/
theorem ppm_image {nx1 nx2 : ℕ} {data : List (List ℝ)} (h : Rect nx1 nx2 data) {name : List Char} {p : List ℕ} (hn : getRGB name = .ok p)
    {smin smax : Option ℝ} {lo hi : ℝ} (hs : Scale smin smax data lo hi) (hne : lo ≠ hi) :
    ∃ img, ppm name smin smax data = .ok img ∧ img.nx1 = nx1 ∧ img.nx2 = nx2 ∧ img.bytes.length = 3 * (nx1 * nx2) ∧
      ∀ j i x, At data j i x → ∀ c, c < 3 → ∃ v b, Lerp p c (place lo hi x) v ∧ b = ⌊255 * v⌋ ∧ 0 ≤ b ∧ b ≤ 255 ∧
        img.bytes[((nx2 - 1 - j) * nx1 + i) * 3 + c]? = some b := by
  have hp := getRGB_good hn
  have hv : ∀ x : ℝ, ∃ v : ℕ → ℝ, computeRgb p lo hi x = .ok [⌊255 * v 0⌋, ⌊255 * v 1⌋, ⌊255 * v 2⌋] ∧ ∀ c, c < 3 → Lerp p c (place lo hi x) (v c) :=
    fun x => rgb_ok hp hne
  choose v hv1 hv2 using hv
  obtain ⟨img, h1, h2, h3, h4, h5⟩ := ppm_bytes h hn hs (g := fun x => [⌊255 * v x 0⌋, ⌊255 * v x 1⌋, ⌊255 * v x 2⌋]) (fun x _ => hv1 x) (fun _ _ => rfl)
  refine ⟨img, h1, h2, h3, h4, fun j i x hx c hc => ?_⟩
  have hu := lerp_unit hp (hv2 x c hc)
  have ht := toInt_unit hu.1 hu.2
  refine ⟨v x c, ⌊255 * v x c⌋, hv2 x c hc, rfl, ht.2.1, ht.2.2, ?_⟩
  rw [h5 j i x hx c hc]
  interval_cases c <;> rfl

/-- **C95**, colour images with an empty scale: black up to the value of the scale, white above. -/
theorem ppm_flat {nx1 nx2 : ℕ} {data : List (List ℝ)} (h : Rect nx1 nx2 data) {name : List Char} {p : List ℕ} (hn : getRGB name = .ok p)
    {smin smax : Option ℝ} {lo : ℝ} (hs : Scale smin smax data lo lo) :
    ∃ img, ppm name smin smax data = .ok img ∧ img.nx1 = nx1 ∧ img.nx2 = nx2 ∧ img.bytes.length = 3 * (nx1 * nx2) ∧
      ∀ j i x, At data j i x → ∀ c, c < 3 → img.bytes[((nx2 - 1 - j) * nx1 + i) * 3 + c]? = some (if lo < x then 255 else 0) := by
  obtain ⟨img, h1, h2, h3, h4, h5⟩ := ppm_bytes h hn hs (g := fun x => [if lo < x then 255 else 0, if lo < x then 255 else 0, if lo < x then 255 else 0])
    (fun x _ => by unfold computeRgb; rw [if_pos rfl]; rfl) (fun _ _ => rfl)
  refine ⟨img, h1, h2, h3, h4, fun j i x hx c hc => ?_⟩
  rw [h5 j i x hx c hc]
  interval_cases c <;> rfl

/-- A palette that is not in the table ends the program. -/
theorem ppm_unknown {name : List Char} (hn : ∀ t ∈ tables, t.1 ≠ name) (smin smax : Option ℝ) (data : List (List ℝ)) : ppm name smin smax data = .fatal := by
  unfold ppm getRGB
  rw [List.find?_eq_none.2 fun t ht => by simpa using hn t ht]
  rfl

/-- Concrete cases: two rows of two values, the upper row first; and the colours of the ends of the default palette. -/
example : ∃ img, pgm none none [[0, 1], [1, 0]] = .ok img ∧ img.bytes.length = 4 ∧ img.bytes[0]? = some 255 ∧ img.bytes[2]? = some 0 := by
  have h : Rect 2 2 [[(0:ℝ), 1], [1, 0]] := ⟨by norm_num, by norm_num, rfl, by simp⟩
  have hs : Scale none none [[(0:ℝ), 1], [1, 0]] 0 1 := by constructor <;> simp
  obtain ⟨img, h1, -, -, h4, h5⟩ := pgm_auto h hs (by norm_num)
  obtain ⟨g, hg, hs1⟩ := h5 1 0 1 ⟨_, rfl, rfl⟩
  obtain ⟨k, hk, hs2⟩ := h5 0 0 0 ⟨_, rfl, rfl⟩
  refine ⟨img, h1, h4, ?_, ?_⟩
  · rw [hs1.2.2.2.1 le_rfl] at hg; exact hg
  · rw [hs2.2.2.1 le_rfl] at hk; exact hk

example : ∃ p, getRGB ['r','a','i','n','b','o','w'] = .ok p := ⟨rainbow, rfl⟩

end Athena.Image
