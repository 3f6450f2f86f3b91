import Verif.Join.Sort

/-!
# Reading the files in join_vtk

The lines before a variable are read with `fscanf`, which also swallows bytes of the data that happen to be white space; the loop that steps back
finds the start of the data again.  Then the rows of zones of all files are read in turn.
-/

namespace Athena.Join

/-! ## Lines -/

/-- A word: not empty, no white space. -/
def Word (w : List Byte) : Prop := w ≠ [] ∧ ∀ b ∈ w, isspace b = false

theorem word_cons {w : List Byte} (h : Word w) : ∃ b r, w = b :: r ∧ isspace b = false := by
  obtain ⟨hne, hw⟩ := h
  cases w with
  | nil => exact absurd rfl hne
  | cons b r => exact ⟨b, r, rfl, hw b (by simp)⟩

theorem skipWs_ws {s l : List Byte} (hs : ∀ b ∈ s, isspace b = true) : skipWs (s ++ l) = skipWs l := by
  induction s with
  | nil => rfl
  | cons b s ih =>
    unfold skipWs at *
    rw [List.cons_append, List.dropWhile_cons, if_pos (hs b (by simp))]
    exact ih fun b hb => hs b (by simp [hb])

theorem skipWs_word {w l : List Byte} (hw : Word w) : skipWs (w ++ l) = w ++ l := by
  obtain ⟨b, r, rfl, hb⟩ := word_cons hw
  unfold skipWs
  rw [List.cons_append, List.dropWhile_cons, hb]
  rfl

theorem split_word {w l : List Byte} (hw : ∀ b ∈ w, isspace b = false) {c : Byte} (hc : isspace c = true) :
    (w ++ c :: l).takeWhile (fun b => !isspace b) = w ∧ (w ++ c :: l).dropWhile (fun b => !isspace b) = c :: l := by
  induction w with
  | nil => simp [hc]
  | cons b w ih =>
    have hb := hw b (by simp)
    have := ih fun b hb => hw b (by simp [hb])
    simp only [List.cons_append, List.takeWhile_cons, List.dropWhile_cons, hb, Bool.not_false, if_true]
    exact ⟨by rw [this.1], this.2⟩

theorem token_word {s w l : List Byte} {c : Byte} (hs : ∀ b ∈ s, isspace b = true) (hw : Word w) (hc : isspace c = true) :
    token (s ++ (w ++ c :: l)) = some (w, c :: l) := by
  unfold token
  rw [skipWs_ws hs, skipWs_word hw]
  obtain ⟨h1, h2⟩ := split_word (l := l) hw.2 hc
  obtain ⟨b, r, rfl, hb⟩ := word_cons hw
  rw [List.cons_append] at h1 h2 ⊢
  dsimp only
  rw [h1, h2]

theorem token_space {w l : List Byte} {c d : Byte} (hd : isspace d = true) (hw : Word w) (hc : isspace c = true) :
    token (d :: (w ++ c :: l)) = some (w, c :: l) := by
  have := token_word (s := [d]) (l := l) (by simpa using hd) hw hc
  simpa using this

/-- The step back from a byte that is not white space. -/
theorem back_stop {f : List Byte} {q : ℕ} {c : Byte} (hc : f[q]? = some c) (hs : isspace c = false) (hn : f[q+1]? = some 10) :
    back f q = .ok (q + 2) := by
  cases q with
  | zero => unfold back; rw [hc]; dsimp only; rw [hs]; simp [hn]
  | succ q => unfold back; rw [hc]; dsimp only; rw [hs]; simp [hn]

/-- The step back over white space. -/
theorem back_over {f : List Byte} {q : ℕ} {c : Byte} (hc : f[q+1]? = some c) (hs : isspace c = true) : back f (q+1) = back f q := by
  rw [back, hc]
  dsimp only
  rw [hs]
  simp

theorem back_run {f : List Byte} {q : ℕ} {c : Byte} (hc : f[q]? = some c) (hs : isspace c = false) (hn : f[q+1]? = some 10) (m : ℕ)
    (hm : ∀ t, t < m → ∃ b, f[q+2+t]? = some b ∧ isspace b = true) : back f (q + 1 + m) = .ok (q + 2) := by
  induction m with
  | zero => rw [back_over hn (by decide), back_stop hc hs hn]
  | succ m ih =>
    obtain ⟨b, hb, hbs⟩ := hm m (by omega)
    rw [show q + 1 + (m + 1) = (q + 1 + m) + 1 by omega, back_over (by rw [show q + 1 + m + 1 = q + 2 + m by omega]; exact hb) hbs]
    exact ih fun t ht => hm t (by omega)

/-- **The start of the data is found again, whatever the data.** -/
theorem back_found (P T : List Byte) {c : Byte} (hc : isspace c = false) :
    (P ++ c :: 10 :: T).length - (skipWs T).length ≠ 0 ∧
    back (P ++ c :: 10 :: T) ((P ++ c :: 10 :: T).length - (skipWs T).length - 1) = .ok (P.length + 2) := by
  have hT : T.takeWhile isspace ++ skipWs T = T := List.takeWhile_append_dropWhile
  have hl : T.length = (T.takeWhile isspace).length + (skipWs T).length := by rw [← List.length_append, hT]
  have hL : (P ++ c :: 10 :: T).length - (skipWs T).length = P.length + 2 + (T.takeWhile isspace).length := by
    simp only [List.length_append, List.length_cons]
    omega
  refine ⟨by rw [hL]; omega, ?_⟩
  rw [hL, show P.length + 2 + (T.takeWhile isspace).length - 1 = P.length + 1 + (T.takeWhile isspace).length by omega]
  refine back_run (c := c) (by simp) hc (by simp) _ fun t ht => ?_
  refine ⟨(T.takeWhile isspace)[t], ?_, ?_⟩
  · have h1 : (P ++ c :: 10 :: T)[P.length + 2 + t]? = T[t]? := by
      rw [List.getElem?_append_right (by omega), show P.length + 2 + t - P.length = t + 2 by omega]
      simp
    rw [h1]
    conv_lhs => rw [← hT]
    rw [List.getElem?_append_left ht, List.getElem?_eq_getElem ht]
  · have := List.all_takeWhile (p := isspace) (l := T)
    exact List.all_eq_true.mp this _ (List.getElem_mem ht)

theorem word_kind (v : Var) : Word v.kind := by
  unfold Word Var.kind
  cases v.vec
  · exact ⟨by decide, by decide⟩
  · exact ⟨by decide, by decide⟩

theorem isspace32 : isspace 32 = true := by decide
theorem isspace10 : isspace 10 = true := by decide

/-- The lines of a variable are read, and the position is the start of the data. -/
theorem readLine_var (A s T : List Byte) (v : Var) (hs : ∀ b ∈ s, isspace b = true) (hv : Word v.name) :
    readLine (A ++ s ++ v.line ++ T) A.length = .ok (some (⟨v.kind, v.name, sFloat⟩, (A ++ s ++ v.line).length)) := by
  have hk := word_kind v
  have hf : Word (sFloat) := ⟨by decide, by decide⟩
  have hLT : Word (sLookup) := ⟨by decide, by decide⟩
  have hdf : Word (sDefault) := ⟨by decide, by decide⟩
  by_cases hvec : v.vec = true
  · have hline : v.line = v.kind ++ 32 :: (v.name ++ 32 :: (sFloat ++ [10])) := by
      unfold Var.line
      rw [hvec]
      simp
    have hkind : v.kind ≠ sScalars := by unfold Var.kind; rw [hvec]; decide
    have hdrop : (A ++ s ++ v.line ++ T).drop A.length = s ++ (v.kind ++ 32 :: (v.name ++ 32 :: (sFloat ++ 10 :: T))) := by
      rw [List.append_assoc, List.append_assoc, List.drop_left, hline]
      simp
    obtain ⟨P, hP⟩ : ∃ P, P = A ++ s ++ v.kind ++ 32 :: (v.name ++ 32 :: str ['f','l','o','a']) := ⟨_, rfl⟩
    have hfl : sFloat = str ['f','l','o','a'] ++ [116] := by decide
    have hfile : A ++ s ++ v.line ++ T = P ++ 116 :: 10 :: T := by
      rw [hP, hline, hfl]
      simp
    have hlen : (A ++ s ++ v.line).length = P.length + 2 := by
      rw [hP, hline, hfl]
      simp only [List.length_append, List.length_cons, List.length_nil]
      omega
    obtain ⟨hb1, hb2⟩ := back_found P T (c := 116) (by decide)
    unfold readLine
    rw [hdrop, token_word hs hk isspace32]
    dsimp only
    rw [token_space isspace32 hv isspace32]
    dsimp only
    rw [token_space isspace32 hf isspace10]
    dsimp only
    rw [if_neg hkind, show skipWs (10 :: T) = skipWs T from skipWs_ws (s := [10]) (by decide), hlen, hfile, if_neg hb1, hb2]
  · have hvec : v.vec = false := by simpa using hvec
    have hline : v.line = v.kind ++ 32 :: (v.name ++ 32 :: (sFloat ++ 10 :: (sLookup ++ 32 :: (sDefault ++ [10])))) := by
      unfold Var.line
      rw [hvec, show sTable = sLookup ++ 32 :: sDefault from by decide]
      simp
    have hkind : v.kind = sScalars := by unfold Var.kind; rw [hvec]; rfl
    have hdrop : (A ++ s ++ v.line ++ T).drop A.length =
        s ++ (v.kind ++ 32 :: (v.name ++ 32 :: (sFloat ++ 10 :: (sLookup ++ 32 :: (sDefault ++ 10 :: T))))) := by
      rw [List.append_assoc, List.append_assoc, List.drop_left, hline]
      simp
    obtain ⟨P, hP⟩ : ∃ P, P = A ++ s ++ v.kind ++ 32 :: (v.name ++ 32 :: (sFloat ++ 10 :: (sLookup ++ 32 :: str ['d','e','f','a','u','l']))) := ⟨_, rfl⟩
    have hfl : sDefault = str ['d','e','f','a','u','l'] ++ [116] := by decide
    have hfile : A ++ s ++ v.line ++ T = P ++ 116 :: 10 :: T := by
      rw [hP, hline, hfl]
      simp
    have hlen : (A ++ s ++ v.line).length = P.length + 2 := by
      rw [hP, hline, hfl]
      simp only [List.length_append, List.length_cons, List.length_nil]
      omega
    obtain ⟨hb1, hb2⟩ := back_found P T (c := 116) (by decide)
    unfold readLine
    rw [hdrop, token_word hs hk isspace32]
    dsimp only
    rw [token_space isspace32 hv isspace32]
    dsimp only
    rw [token_space isspace32 hf isspace10]
    dsimp only
    have hsk : skipWs (10 :: (sLookup ++ 32 :: (sDefault ++ 10 :: T))) = sLookup ++ 32 :: (sDefault ++ 10 :: T) :=
      (skipWs_ws (s := [10]) (l := sLookup ++ 32 :: (sDefault ++ 10 :: T)) (by decide)).trans (skipWs_word hLT)
    rw [if_pos hkind, hsk]
    rw [show token (sLookup ++ 32 :: (sDefault ++ 10 :: T)) = _ from token_word (s := []) (by simp) hLT isspace32]
    dsimp only
    rw [token_space isspace32 hdf isspace10]
    dsimp only
    rw [if_pos ⟨rfl, rfl⟩, show skipWs (10 :: T) = skipWs T from skipWs_ws (s := [10]) (by decide), hlen, hfile, if_neg hb1, hb2]

theorem readLine_end (A : List Byte) : readLine A A.length = .ok none := by
  unfold readLine
  rw [List.drop_length]
  rfl

/-! ## Rows -/

/-- The same loop with the number of rows read from each file in place of the position. -/
def counted (row : Idx → ℕ → List Byte) : List Idx → (Idx → ℕ) → (Idx → ℕ) × List Byte
  | [], c => (c, [])
  | x :: l, c =>
    let r := counted row l (Function.update c x (c x + 1))
    (r.1, row x (c x) ++ r.2)

theorem counted_append (row : Idx → ℕ → List Byte) (a b : List Idx) (c : Idx → ℕ) :
    counted row (a ++ b) c = ((counted row b (counted row a c).1).1, (counted row a c).2 ++ (counted row b (counted row a c).1).2) := by
  induction a generalizing c with
  | nil => rfl
  | cons x a ih =>
    rw [List.cons_append, counted, counted]
    dsimp only
    rw [ih, List.append_assoc]

theorem counted_mono (row : Idx → ℕ → List Byte) (l : List Idx) (c : Idx → ℕ) (x : Idx) : c x ≤ (counted row l c).1 x := by
  induction l generalizing c with
  | nil => exact le_rfl
  | cons y l ih =>
    rw [counted]
    dsimp only
    refine le_trans ?_ (ih _)
    by_cases h : x = y
    · subst h; simp
    · simp [Function.update_of_ne h]

theorem counted_row (row : Idx → ℕ → List Byte) (kg jg nX : ℕ) (c : Idx → ℕ) :
    counted row (cat nX fun ig => [(kg, jg, ig)]) c =
      (fun x => if x.1 = kg ∧ x.2.1 = jg ∧ x.2.2 < nX then c x + 1 else c x, cat nX fun ig => row (kg, jg, ig) (c (kg, jg, ig))) := by
  induction nX with
  | zero => simp [cat, counted]
  | succ n ih =>
    rw [cat_succ, counted_append, ih, cat_succ]
    dsimp only [counted]
    refine Prod.ext ?_ ?_
    · funext x
      obtain ⟨k, j, i⟩ := x
      by_cases h : (k, j, i) = (kg, jg, n)
      · cases h; simp
      · dsimp only
        rw [Function.update_of_ne h]
        by_cases h1 : k = kg ∧ j = jg ∧ i < n
        · rw [if_pos h1, if_pos ⟨h1.1, h1.2.1, by omega⟩]
        · rw [if_neg h1, if_neg]
          rintro ⟨rfl, rfl, h2⟩
          by_cases hin : i = n
          · subst hin; exact h rfl
          · exact h1 ⟨rfl, rfl, by omega⟩
    · dsimp only
      rw [List.append_nil, if_neg]
      rintro ⟨_, _, h⟩
      omega

theorem counted_rows (row : Idx → ℕ → List Byte) (kg jg nX m : ℕ) (c : Idx → ℕ) :
    counted row (cat m fun _ => cat nX fun ig => [(kg, jg, ig)]) c =
      (fun x => if x.1 = kg ∧ x.2.1 = jg ∧ x.2.2 < nX then c x + m else c x,
       cat m fun j => cat nX fun ig => row (kg, jg, ig) (c (kg, jg, ig) + j)) := by
  induction m with
  | zero => simp [cat, counted]
  | succ m ih =>
    rw [cat_succ, counted_append, ih, cat_succ]
    dsimp only
    rw [counted_row]
    refine Prod.ext ?_ ?_
    · funext x
      dsimp only
      by_cases h : x.1 = kg ∧ x.2.1 = jg ∧ x.2.2 < nX
      · rw [if_pos h, if_pos h, if_pos h]; omega
      · rw [if_neg h, if_neg h, if_neg h]
    · dsimp only
      congr 1
      refine cat_congr fun i hi => ?_
      rw [if_pos ⟨rfl, rfl, hi⟩]

theorem counted_plane (row : Idx → ℕ → List Byte) (Ny : ℕ → ℕ) (kg nX nY : ℕ) (c : Idx → ℕ) :
    counted row (cat nY fun jg => cat (Ny jg) fun _ => cat nX fun ig => [(kg, jg, ig)]) c =
      (fun x => if x.1 = kg ∧ x.2.1 < nY ∧ x.2.2 < nX then c x + Ny x.2.1 else c x,
       cat nY fun jg => cat (Ny jg) fun j => cat nX fun ig => row (kg, jg, ig) (c (kg, jg, ig) + j)) := by
  induction nY with
  | zero => simp [cat, counted]
  | succ n ih =>
    rw [cat_succ, counted_append, ih, cat_succ]
    dsimp only
    rw [counted_rows]
    refine Prod.ext ?_ ?_
    · funext x
      obtain ⟨k, j, i⟩ := x
      dsimp only
      by_cases h : k = kg ∧ j = n ∧ i < nX
      · rw [if_pos h, if_neg (by omega), if_pos ⟨h.1, by omega, h.2.2⟩, h.2.1]
      · rw [if_neg h]
        by_cases h1 : k = kg ∧ j < n ∧ i < nX
        · rw [if_pos h1, if_pos ⟨h1.1, by omega, h1.2.2⟩]
        · rw [if_neg h1, if_neg]
          rintro ⟨h2, h3, h4⟩
          by_cases hjn : j = n
          · exact h ⟨h2, hjn, h4⟩
          · exact h1 ⟨h2, by omega, h4⟩
    · dsimp only
      congr 1
      refine cat_congr fun j hj => cat_congr fun i hi => ?_
      rw [if_neg (by omega)]

theorem counted_planes (row : Idx → ℕ → List Byte) (Ny : ℕ → ℕ) (kg nX nY m : ℕ) (c : Idx → ℕ) :
    counted row (cat m fun _ => cat nY fun jg => cat (Ny jg) fun _ => cat nX fun ig => [(kg, jg, ig)]) c =
      (fun x => if x.1 = kg ∧ x.2.1 < nY ∧ x.2.2 < nX then c x + m * Ny x.2.1 else c x,
       cat m fun k => cat nY fun jg => cat (Ny jg) fun j => cat nX fun ig => row (kg, jg, ig) (c (kg, jg, ig) + (k * Ny jg + j))) := by
  induction m with
  | zero => simp [cat, counted]
  | succ m ih =>
    rw [cat_succ, counted_append, ih, cat_succ]
    dsimp only
    rw [counted_plane]
    refine Prod.ext ?_ ?_
    · funext x
      dsimp only
      by_cases h : x.1 = kg ∧ x.2.1 < nY ∧ x.2.2 < nX
      · rw [if_pos h, if_pos h, if_pos h, Nat.succ_mul]; omega
      · rw [if_neg h, if_neg h, if_neg h]
    · dsimp only
      congr 1
      refine cat_congr fun jg hjg => cat_congr fun j hj => cat_congr fun i hi => ?_
      rw [if_pos ⟨rfl, hjg, hi⟩, Nat.add_assoc]

theorem counted_all (row : Idx → ℕ → List Byte) (Ny Nz : ℕ → ℕ) (nX nY nZ : ℕ) (c : Idx → ℕ) :
    counted row (cat nZ fun kg => cat (Nz kg) fun _ => cat nY fun jg => cat (Ny jg) fun _ => cat nX fun ig => [(kg, jg, ig)]) c =
      (fun x => if x.1 < nZ ∧ x.2.1 < nY ∧ x.2.2 < nX then c x + Nz x.1 * Ny x.2.1 else c x,
       cat nZ fun kg => cat (Nz kg) fun k => cat nY fun jg => cat (Ny jg) fun j => cat nX fun ig =>
         row (kg, jg, ig) (c (kg, jg, ig) + (k * Ny jg + j))) := by
  induction nZ with
  | zero => simp [cat, counted]
  | succ n ih =>
    rw [cat_succ, counted_append, ih, cat_succ]
    dsimp only
    rw [counted_planes]
    refine Prod.ext ?_ ?_
    · funext x
      obtain ⟨k, j, i⟩ := x
      dsimp only
      by_cases h : k = n ∧ j < nY ∧ i < nX
      · rw [if_pos h, if_neg (by omega), if_pos ⟨by omega, h.2⟩, h.1]
      · rw [if_neg h]
        by_cases h1 : k < n ∧ j < nY ∧ i < nX
        · rw [if_pos h1, if_pos ⟨by omega, h1.2⟩]
        · rw [if_neg h1, if_neg]
          rintro ⟨h2, h3, h4⟩
          by_cases hkn : k = n
          · exact h ⟨hkn, h3, h4⟩
          · exact h1 ⟨by omega, h3, h4⟩
    · dsimp only
      congr 1
      refine cat_congr fun k hk => cat_congr fun jg hjg => cat_congr fun j hj => cat_congr fun i hi => ?_
      rw [if_neg (by omega)]

theorem length_cat_row {n c : ℕ} {f : ℕ → List Byte} (h : ∀ i, (f i).length = c) : (cat n f).length = n * c := cat_length fun i _ => h i

/-- Reading rows, in terms of the number of rows read. -/
theorem readRows_counted (N : Idx → Dom) (w : ℕ) (V : Idx → Prop) (pre post : Idx → List Byte) (R : Idx → ℕ) (row : Idx → ℕ → List Byte)
    (hrow : ∀ x r, (row x r).length = (N (0, 0, x.2.2)).Nx * w)
    (hbody : ∀ x, V x → (N x).file.body = pre x ++ cat (R x) (row x) ++ post x)
    (l : List Idx) (hl : ∀ x ∈ l, V x) (c : Idx → ℕ) (hc : ∀ x, V x → (counted row l c).1 x ≤ R x) (pos : Idx → ℕ) (out : List Byte)
    (hpos : ∀ x, V x → pos x = (pre x).length + c x * ((N (0, 0, x.2.2)).Nx * w)) :
    ∃ pos', readRows N w l (pos, out) = .ok (pos', out ++ (counted row l c).2) ∧
      ∀ x, V x → pos' x = (pre x).length + (counted row l c).1 x * ((N (0, 0, x.2.2)).Nx * w) := by
  induction l generalizing c pos out with
  | nil => exact ⟨pos, by simp [readRows, counted], hpos⟩
  | cons x l ih =>
    have hVx := hl x (by simp)
    have hlt : c x < R x := by
      have h1 := hc x hVx
      have h2 := counted_mono row l (Function.update c x (c x + 1)) x
      rw [counted] at h1
      rw [Function.update_self] at h2
      dsimp only at h1
      omega
    have hread : ((N x).file.body.drop (pos x)).take ((N (0, 0, x.2.2)).Nx * w) = row x (c x) := by
      rw [hbody x hVx, hpos x hVx, List.append_assoc, List.drop_append, List.drop_of_length_le (by omega), List.nil_append,
        Nat.add_sub_cancel_left]
      have h1 := chunk_cat (n := R x) (f := row x) (fun r _ => hrow x r) hlt
      have hle : c x * ((N (0, 0, x.2.2)).Nx * w) + (N (0, 0, x.2.2)).Nx * w ≤ (cat (R x) (row x)).length := by
        rw [length_cat_row (hrow x), ← Nat.succ_mul]
        exact Nat.mul_le_mul_right _ hlt
      rw [List.drop_append_of_le_length (by omega), List.take_append_of_le_length (by rw [List.length_drop]; omega)]
      exact h1
    obtain ⟨pos', h1, h2⟩ := ih (fun y hy => hl y (by simp [hy])) (Function.update c x (c x + 1)) (fun y hy => hc y hy)
      (Function.update pos x (pos x + (N (0, 0, x.2.2)).Nx * w)) (out ++ row x (c x)) (fun y hy => by
        by_cases h : y = x
        · subst h
          rw [Function.update_self, Function.update_self, hpos y hy, Nat.succ_mul]
          omega
        · rw [Function.update_of_ne h, Function.update_of_ne h, hpos y hy])
    refine ⟨pos', ?_, fun y hy => h2 y hy⟩
    unfold readRows readRow
    dsimp only
    rw [hread, if_neg (by rw [hrow]; exact fun h => h rfl)]
    dsimp only
    rw [h1, counted, List.append_assoc]

end Athena.Join
