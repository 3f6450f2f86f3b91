import Verif.Join.Model
import Mathlib.Data.List.Sort
import Mathlib.Tactic.Linarith
import Mathlib.Tactic.Ring

/-!
# Order of the files in join_vtk

Whatever the order of the files on the command line, and whatever `qsort` does with equal keys, the three rounds of sorting put the files of a
decomposition in the order of the Grids, if the origins read back are distinct along each direction.
-/

namespace Athena.Join

variable {α : Type}

/-! ## Loops -/

theorem cat_zero (f : ℕ → List α) : cat 0 f = [] := rfl

theorem cat_succ (n : ℕ) (f : ℕ → List α) : cat (n+1) f = cat n f ++ f n := by
  simp [cat, List.range_succ]

theorem cat_add (a b : ℕ) (f : ℕ → List α) : cat (a+b) f = cat a f ++ cat b fun i => f (a+i) := by
  induction b with
  | zero => simp [cat]
  | succ b ih => rw [← Nat.add_assoc, cat_succ, ih, cat_succ, List.append_assoc]

theorem cat_succ' (n : ℕ) (f : ℕ → List α) : cat (n+1) f = f 0 ++ cat n fun i => f (i+1) := by
  rw [Nat.add_comm, cat_add]
  simp [cat, Nat.add_comm]

theorem cat_congr {n : ℕ} {f g : ℕ → List α} (h : ∀ i, i < n → f i = g i) : cat n f = cat n g := by
  induction n with
  | zero => rfl
  | succ n ih => rw [cat_succ, cat_succ, ih fun i hi => h i (by omega), h n (by omega)]

theorem cat_perm {n : ℕ} {f g : ℕ → List α} (h : ∀ i, i < n → (f i).Perm (g i)) : (cat n f).Perm (cat n g) := by
  induction n with
  | zero => exact List.Perm.refl _
  | succ n ih => rw [cat_succ, cat_succ]; exact (ih fun i hi => h i (by omega)).append (h n (by omega))

theorem cat_length {n c : ℕ} {f : ℕ → List α} (h : ∀ i, i < n → (f i).length = c) : (cat n f).length = n * c := by
  induction n with
  | zero => simp [cat]
  | succ n ih => rw [cat_succ, List.length_append, ih fun i hi => h i (by omega), h n (by omega), Nat.succ_mul]

theorem cat_map {β : Type} (n : ℕ) (f : ℕ → List α) (g : α → β) : (cat n f).map g = cat n fun i => (f i).map g := by
  induction n with
  | zero => rfl
  | succ n ih => rw [cat_succ, cat_succ, List.map_append, ih]

theorem cat_filter (n : ℕ) (f : ℕ → List α) (p : α → Bool) : (cat n f).filter p = cat n fun i => (f i).filter p := by
  induction n with
  | zero => rfl
  | succ n ih => rw [cat_succ, cat_succ, List.filter_append, ih]

theorem cat_mul (a b : ℕ) (f : ℕ → List α) : cat (b * a) f = cat a fun k => cat b fun j => f (k * b + j) := by
  induction a with
  | zero => simp [cat]
  | succ a ih => rw [Nat.mul_succ, cat_add, ih, cat_succ, Nat.mul_comm a b]

theorem cat_nil {n : ℕ} {f : ℕ → List α} (h : ∀ i, i < n → f i = []) : cat n f = [] := by
  induction n with
  | zero => rfl
  | succ n ih => rw [cat_succ, ih fun i hi => h i (by omega), h n (by omega)]; rfl

theorem cat_one_of {n i : ℕ} (hi : i < n) {f : ℕ → List α} (h : ∀ j, j < n → j ≠ i → f j = []) : cat n f = f i := by
  induction n with
  | zero => omega
  | succ n ih =>
    rw [cat_succ]
    by_cases hin : i = n
    · subst hin
      rw [cat_nil fun j hj => h j (by omega) (by omega), List.nil_append]
    · rw [ih (by omega) fun j hj => h j (by omega), h n (by omega) (by omega), List.append_nil]

/-! ## Blocks of equal length -/

theorem cat_chunk_take (c n : ℕ) (l : List α) : (cat n fun i => chunk c i l) = l.take (n * c) := by
  induction n with
  | zero => simp [cat]
  | succ n ih => rw [cat_succ, ih, chunk, Nat.succ_mul, List.take_add]

theorem cat_chunk {c n : ℕ} {l : List α} (h : l.length = n * c) : (cat n fun i => chunk c i l) = l := by
  rw [cat_chunk_take, List.take_of_length_le (by omega)]

theorem chunk_cat {c n : ℕ} {f : ℕ → List α} (h : ∀ i, i < n → (f i).length = c) {i : ℕ} (hi : i < n) :
    chunk c i (cat n f) = f i := by
  induction n with
  | zero => omega
  | succ n ih =>
    have hl : (cat n f).length = n * c := cat_length fun i hi => h i (by omega)
    rw [cat_succ]
    by_cases hin : i = n
    · subst hin
      rw [chunk, List.drop_append_of_le_length (by omega), List.drop_of_length_le (by omega), List.nil_append,
        List.take_of_length_le (by rw [h i (by omega)])]
    · have h1 : i * c + c ≤ n * c := by
        rw [← Nat.succ_mul]; exact Nat.mul_le_mul_right c (by omega)
      rw [← ih (fun i hi => h i (by omega)) (by omega), chunk, chunk, List.drop_append_of_le_length (by omega),
        List.take_append_of_le_length (by rw [List.length_drop]; omega)]

theorem chunk_map {β : Type} (c i : ℕ) (l : List α) (g : α → β) : (chunk c i l).map g = chunk c i (l.map g) := by
  simp [chunk, List.map_take, List.map_drop]

theorem chunk_get {c i r : ℕ} (hr : r < c) (l : List α) : (chunk c i l)[r]? = l[i * c + r]? := by
  rw [chunk, List.getElem?_take_of_lt hr, List.getElem?_drop]

theorem cat_get {c n : ℕ} {f : ℕ → List α} (h : ∀ i, i < n → (f i).length = c) {i r : ℕ} (hi : i < n) (hr : r < c) :
    (cat n f)[i * c + r]? = (f i)[r]? := by
  rw [← chunk_get hr, chunk_cat h hi]

/-- Chunks of a list of longer blocks. -/
theorem chunk_cat_mul {a b n : ℕ} {f : ℕ → List α} (h : ∀ i, i < n → (f i).length = b * a) {k j : ℕ} (hk : k < n) (hj : j < b) :
    chunk a (k * b + j) (cat n f) = chunk a j (f k) := by
  rw [← chunk_cat h hk]
  have h1 : j * a + a ≤ b * a := by rw [← Nat.succ_mul]; exact Nat.mul_le_mul_right a (by omega)
  rw [chunk, chunk, chunk, List.drop_take, List.drop_drop, List.take_take, Nat.min_eq_left (by omega)]
  congr 2
  ring

/-! ## Counting -/

theorem rises_same (o : ℝ) (m : ℕ) (l : List ℝ) : rises o (List.replicate m o ++ l) = rises o l := by
  induction m with
  | zero => rfl
  | succ m ih => rw [List.replicate_succ, List.cons_append, rises, if_neg (lt_irrefl o), ih]

theorem rises_blocks {c : ℕ} (hc : 0 < c) (n : ℕ) (Z : ℕ → ℝ) (hZ : ∀ i, i + 1 < n → Z i < Z (i+1)) (o : ℝ) (ho : 0 < n → o < Z 0) :
    rises o (cat n fun i => List.replicate c (Z i)) = n := by
  induction n generalizing Z o with
  | zero => rfl
  | succ n ih =>
    obtain ⟨c, rfl⟩ : ∃ m, c = m + 1 := ⟨c - 1, by omega⟩
    rw [cat_succ', List.replicate_succ, List.cons_append, rises, if_pos (ho (by omega)), rises_same]
    rw [ih (fun i => Z (i+1)) (fun i hi => hZ (i+1) (by omega)) (Z 0) (fun h => hZ 0 (by omega))]

theorem count_blocks {c : ℕ} (hc : 0 < c) (n : ℕ) (hn : 0 < n) (Z : ℕ → ℝ) (hZ : ∀ i, i + 1 < n → Z i < Z (i+1)) :
    count (cat n fun i => List.replicate c (Z i)) = n := by
  obtain ⟨c, rfl⟩ : ∃ m, c = m + 1 := ⟨c - 1, by omega⟩
  obtain ⟨n, rfl⟩ : ∃ m, n = m + 1 := ⟨n - 1, by omega⟩
  rw [cat_succ', List.replicate_succ, List.cons_append, count, rises_same,
    rises_blocks (Nat.succ_pos c) n (fun i => Z (i+1)) (fun i hi => hZ (i+1) (by omega)) (Z 0) fun h => hZ 0 (by omega)]

/-! ## One round of sorting -/

theorem mono_lt {n : ℕ} {Z : ℕ → ℝ} (hZ : ∀ i, i + 1 < n → Z i < Z (i+1)) : ∀ i j, i < j → j < n → Z i < Z j := by
  intro i j hij hj
  induction j with
  | zero => omega
  | succ j ih =>
    by_cases h : i = j
    · subst h; exact hZ i hj
    · exact lt_trans (ih (by omega) (by omega)) (hZ j hj)

theorem sorted_keys {n c : ℕ} {key : α → ℝ} {G : ℕ → List α} {Z : ℕ → ℝ} (hZ : ∀ i, i + 1 < n → Z i < Z (i+1))
    (hG : ∀ i, i < n → (G i).length = c) (hk : ∀ i, i < n → ∀ d ∈ G i, key d = Z i) {l : List α} (hp : l.Perm (cat n G))
    (hs : l.Pairwise fun a b => key a ≤ key b) : l.map key = cat n fun i => List.replicate c (Z i) := by
  have h1 : (cat n G).map key = cat n fun i => List.replicate c (Z i) := by
    rw [cat_map]
    refine cat_congr fun i hi => ?_
    rw [List.eq_replicate_iff]
    refine ⟨by rw [List.length_map, hG i hi], fun b hb => ?_⟩
    obtain ⟨d, hd, rfl⟩ := List.mem_map.mp hb
    exact hk i hi d hd
  have h2 : ∀ m, m ≤ n → (cat m fun i => List.replicate c (Z i)).Pairwise (· ≤ ·) := by
    intro m hm
    induction m with
    | zero => exact List.Pairwise.nil
    | succ m ih =>
      rw [cat_succ, List.pairwise_append]
      refine ⟨ih (by omega), List.pairwise_replicate.mpr (Or.inr le_rfl), fun a ha b hb => ?_⟩
      obtain ⟨i, hi, ha⟩ := List.mem_flatMap.mp ha
      rw [List.eq_of_mem_replicate ha, List.eq_of_mem_replicate hb]
      exact (mono_lt hZ i m (List.mem_range.mp hi) (by omega)).le
  refine List.Perm.eq_of_pairwise (fun a b _ _ h h' => le_antisymm h h') ?_ (h2 n le_rfl) (h1 ▸ hp.map key)
  rw [List.pairwise_map]
  exact hs

/-- After sorting, the blocks hold the files with the first, second, … key. -/
theorem sorted_chunk {n c : ℕ} {key : α → ℝ} {G : ℕ → List α} {Z : ℕ → ℝ} (hZ : ∀ i, i + 1 < n → Z i < Z (i+1))
    (hG : ∀ i, i < n → (G i).length = c) (hk : ∀ i, i < n → ∀ d ∈ G i, key d = Z i) {l : List α} (hp : l.Perm (cat n G))
    (hs : l.Pairwise fun a b => key a ≤ key b) {i : ℕ} (hi : i < n) : (chunk c i l).Perm (G i) := by
  classical
  have hkeys := sorted_keys hZ hG hk hp hs
  have hlen : l.length = n * c := by rw [hp.length_eq, cat_length hG]
  have hck : ∀ j, j < n → ∀ d ∈ chunk c j l, key d = Z j := by
    intro j hj d hd
    have h1 : key d ∈ (chunk c j l).map key := List.mem_map_of_mem hd
    rw [chunk_map, hkeys, chunk_cat (fun i _ => List.length_replicate) hj] at h1
    exact List.eq_of_mem_replicate h1
  have hne : ∀ j, j < n → j ≠ i → Z j ≠ Z i := by
    intro j hj hji
    rcases Nat.lt_or_gt_of_ne hji with h | h
    · exact (mono_lt hZ j i h hi).ne
    · exact (mono_lt hZ i j h hj).ne'
  have hfil : ∀ (F : ℕ → List α), (∀ j, j < n → ∀ d ∈ F j, key d = Z j) → (cat n F).filter (fun d => decide (key d = Z i)) = F i := by
    intro F hF
    rw [cat_filter, cat_one_of hi]
    · rw [List.filter_eq_self]
      intro d hd
      exact decide_eq_true (hF i hi d hd)
    · intro j hj hji
      rw [List.filter_eq_nil_iff]
      intro d hd h
      exact hne j hj hji ((hF j hj d hd).symm.trans (of_decide_eq_true h))
  have := hp.filter (fun d => decide (key d = Z i))
  rw [hfil G hk] at this
  rwa [← cat_chunk hlen, hfil (fun j => chunk c j l) hck] at this

theorem sorted_count {n c : ℕ} (hn : 0 < n) (hc : 0 < c) {key : α → ℝ} {G : ℕ → List α} {Z : ℕ → ℝ}
    (hZ : ∀ i, i + 1 < n → Z i < Z (i+1)) (hG : ∀ i, i < n → (G i).length = c) (hk : ∀ i, i < n → ∀ d ∈ G i, key d = Z i)
    {l : List α} (hp : l.Perm (cat n G)) (hs : l.Pairwise fun a b => key a ≤ key b) : count (l.map key) = n := by
  rw [sorted_keys hZ hG hk hp hs, count_blocks hc n hn Z hZ]

/-! ## The three rounds -/

/-- The files of a decomposition, in the order of the Grids. -/
def inOrder (D : ℕ → ℕ → ℕ → α) (nX nY nZ : ℕ) : List α := cat nZ fun k => cat nY fun j => cat nX fun i => [D k j i]

theorem sortBy_correct (Q : QsortOf α) (ox oy oz : α → ℝ) {nX nY nZ : ℕ} (hX0 : 0 < nX) (hY0 : 0 < nY) (hZ0 : 0 < nZ) (D : ℕ → ℕ → ℕ → α) (X Y Z : ℕ → ℝ)
    (hX : ∀ i, i + 1 < nX → X i < X (i+1)) (hY : ∀ i, i + 1 < nY → Y i < Y (i+1)) (hZ : ∀ i, i + 1 < nZ → Z i < Z (i+1))
    (hD : ∀ k j i, k < nZ → j < nY → i < nX →
      ox (D k j i) = X i ∧ oy (D k j i) = Y j ∧ oz (D k j i) = Z k)
    {l : List α} (hl : l.Perm (inOrder D nX nY nZ)) : sortBy Q ox oy oz l = .ok (inOrder D nX nY nZ, nX, nY, nZ) := by
  have lenR : ∀ k j, (cat nX fun i => [D k j i]).length = nX := fun k j => by
    rw [cat_length (c := 1) fun i _ => rfl, Nat.mul_one]
  have lenP : ∀ k, (cat nY fun j => cat nX fun i => [D k j i]).length = nY * nX := fun k => cat_length fun j _ => lenR k j
  have memR : ∀ k j d, d ∈ (cat nX fun i => [D k j i]) → ∃ i, i < nX ∧ d = D k j i := by
    intro k j d hd
    obtain ⟨i, hi, hd⟩ := List.mem_flatMap.mp hd
    exact ⟨i, List.mem_range.mp hi, List.mem_singleton.mp hd⟩
  have memP : ∀ k d, d ∈ (cat nY fun j => cat nX fun i => [D k j i]) → ∃ j i, j < nY ∧ i < nX ∧ d = D k j i := by
    intro k d hd
    obtain ⟨j, hj, hd⟩ := List.mem_flatMap.mp hd
    obtain ⟨i, hi, h⟩ := memR k j d hd
    exact ⟨j, i, List.mem_range.mp hj, hi, h⟩
  have keyZ : ∀ k, k < nZ → ∀ d ∈ (cat nY fun j => cat nX fun i => [D k j i]), oz d = Z k := by
    intro k hk d hd
    obtain ⟨j, i, hj, hi, rfl⟩ := memP k d hd
    exact (hD k j i hk hj hi).2.2
  have keyY : ∀ k, k < nZ → ∀ j, j < nY → ∀ d ∈ (cat nX fun i => [D k j i]), oy d = Y j := by
    intro k hk j hj d hd
    obtain ⟨i, hi, rfl⟩ := memR k j d hd
    exact (hD k j i hk hj hi).2.1
  have hn : l.length = nZ * (nY * nX) := by rw [hl.length_eq]; exact cat_length fun k _ => lenP k
  have hzp : (Q.sort oz l).Perm (inOrder D nX nY nZ) := (Q.perm _ l).trans hl
  have hcz : count ((Q.sort oz l).map oz) = nZ :=
    sorted_count hZ0 (Nat.mul_pos hY0 hX0) hZ (fun k _ => lenP k) keyZ hzp (Q.sorted _ l)
  have hchz : ∀ k, k < nZ → (chunk (nY * nX) k (Q.sort oz l)).Perm (cat nY fun j => cat nX fun i => [D k j i]) :=
    fun k hk => sorted_chunk hZ (fun k _ => lenP k) keyZ hzp (Q.sorted _ l) hk
  unfold sortBy
  dsimp only
  rw [hn]
  generalize Q.sort oz l = l1 at hzp hcz hchz ⊢
  obtain ⟨B, hB⟩ : ∃ B : ℕ → List α, B = fun i => Q.sort oy (chunk (nY * nX) i l1) := ⟨_, rfl⟩
  have hBp : ∀ k, k < nZ → (B k).Perm (cat nY fun j => cat nX fun i => [D k j i]) := fun k hk => by
    rw [hB]; exact (Q.perm _ _).trans (hchz k hk)
  have hBs : ∀ k, (B k).Pairwise fun a b => oy a ≤ oy b := fun k => by rw [hB]; exact Q.sorted _ _
  have hBl : ∀ k, k < nZ → (B k).length = nY * nX := fun k hk => by rw [(hBp k hk).length_eq, lenP]
  have hcy : count ((chunk (nY * nX) 0 (cat nZ B)).map oy) = nY := by
    rw [chunk_cat hBl hZ0]
    exact sorted_count hY0 hX0 hY (fun j _ => lenR 0 j) (keyY 0 hZ0) (hBp 0 hZ0) (hBs 0)
  have hchy : ∀ k, k < nZ → ∀ j, j < nY → (chunk nX j (B k)).Perm (cat nX fun i => [D k j i]) :=
    fun k hk j hj => sorted_chunk hY (fun j _ => lenR k j) (keyY k hk) (hBp k hk) (hBs k) hj
  have hrow : ∀ k, k < nZ → ∀ j, j < nY →
      Q.sort ox (chunk nX (k * nY + j) (cat nZ B)) = cat nX fun i => [D k j i] := by
    intro k hk j hj
    rw [chunk_cat_mul hBl hk hj]
    have hp := (Q.perm ox (chunk nX j (B k))).trans (hchy k hk j hj)
    have hs := Q.sorted ox (chunk nX j (B k))
    generalize Q.sort ox (chunk nX j (B k)) = r at hp hs
    have hr : r.length = nX * 1 := by rw [hp.length_eq, lenR, Nat.mul_one]
    rw [← cat_chunk hr]
    refine cat_congr fun i hi => List.perm_singleton.mp ?_
    refine sorted_chunk (key := ox) (Z := X) hX (G := fun i => [D k j i]) (fun i _ => rfl) ?_ hp hs hi
    intro i hi d hd
    rw [List.mem_singleton.mp hd]
    exact (hD k j i hk hj hi).1
  rw [hcz, if_neg (by rw [Nat.mul_mod_right]; exact fun h => h rfl), Nat.mul_div_cancel_left _ hZ0, ← hB, hcy,
    if_neg (by rw [Nat.mul_mod_right]; exact fun h => h rfl), Nat.mul_div_cancel_left _ hY0, cat_mul]
  rw [show (cat nZ fun k => cat nY fun j => Q.sort ox (chunk nX (k * nY + j) (cat nZ B))) = inOrder D nX nY nZ from
    cat_congr fun k hk => cat_congr fun j hj => hrow k hk j hj]

theorem sort_correct (Q : Qsort) {nX nY nZ : ℕ} (hX0 : 0 < nX) (hY0 : 0 < nY) (hZ0 : 0 < nZ) (D : ℕ → ℕ → ℕ → Dom) (X Y Z : ℕ → ℝ)
    (hX : ∀ i, i + 1 < nX → X i < X (i+1)) (hY : ∀ i, i + 1 < nY → Y i < Y (i+1)) (hZ : ∀ i, i + 1 < nZ → Z i < Z (i+1))
    (hD : ∀ k j i, k < nZ → j < nY → i < nX →
      (D k j i).file.head.ox = X i ∧ (D k j i).file.head.oy = Y j ∧ (D k j i).file.head.oz = Z k)
    {l : List Dom} (hl : l.Perm (inOrder D nX nY nZ)) : sortDoms Q l = .ok (inOrder D nX nY nZ, nX, nY, nZ) :=
  sortBy_correct Q _ _ _ hX0 hY0 hZ0 D X Y Z hX hY hZ hD hl

/-- The array `domain_3d`. -/
theorem fill_inOrder [Inhabited α] {nX nY nZ : ℕ} (D : ℕ → ℕ → ℕ → α) {k j i : ℕ} (hk : k < nZ) (hj : j < nY) (hi : i < nX) :
    fill (inOrder D nX nY nZ) nX nY (k, j, i) = D k j i := by
  have lenR : ∀ k j, (cat nX fun i => [D k j i]).length = nX := fun k j => by
    rw [cat_length (c := 1) fun i _ => rfl, Nat.mul_one]
  have lenP : ∀ k, (cat nY fun j => cat nX fun i => [D k j i]).length = nY * nX := fun k => cat_length fun j _ => lenR k j
  have h1 : j * nX + i < nY * nX := by
    have : (j + 1) * nX ≤ nY * nX := Nat.mul_le_mul_right nX (by omega)
    rw [Nat.succ_mul] at this
    omega
  have h2 : (inOrder D nX nY nZ)[k * (nY * nX) + (j * nX + i)]? = some (D k j i) := by
    rw [inOrder, cat_get (fun k _ => lenP k) hk h1, cat_get (fun j _ => lenR k j) hj hi]
    have := cat_get (c := 1) (n := nX) (f := fun i => [D k j i]) (fun i _ => rfl) hi Nat.zero_lt_one
    simpa using this
  unfold fill
  dsimp only
  rw [List.getD_eq_getElem?_getD, show i + nX * (j + nY * k) = k * (nY * nX) + (j * nX + i) by ring, h2]
  rfl

end Athena.Join
