import Verif.Par.FileProps

/-!
# Property C53 (src/par.c): what an input file can put into the database

Every line accepted by `par_open` is decomposed into `name = value # comment` with arbitrary white
space, and the stored strings are shown to be free of surrounding white space, newlines and
delimiters.  With `dump_open_partial` this gives the dump/re-read property for databases that come
from a file.
-/

namespace Athena.Par

/-! ## Splitting and trimming -/

theorem split_first (c : Char) : ∀ s : Str, c ∉ s ∨ ∃ a t, s = a ++ c :: t ∧ c ∉ a := by
  intro s
  induction s with
  | nil => left; simp
  | cons d s ih =>
    by_cases h : d = c
    · right; exact ⟨[], s, by rw [h]; rfl, by simp⟩
    · rcases ih with h' | ⟨a, t, rfl, ha⟩
      · left; simp only [List.mem_cons, not_or]; exact ⟨fun e => h e.symm, h'⟩
      · right; refine ⟨d :: a, t, rfl, ?_⟩
        simp only [List.mem_cons, not_or]; exact ⟨fun e => h e.symm, ha⟩

theorem trim_left (s : Str) : ∃ w v, s = w ++ v ∧ Spaces w ∧ ∀ c t, v = c :: t → isSpace c = false := by
  induction s with
  | nil => exact ⟨[], [], rfl, Spaces.nil, by intro c t h; simp at h⟩
  | cons d s ih =>
    by_cases h : isSpace d = true
    · obtain ⟨w, v, rfl, hw, hv⟩ := ih
      refine ⟨d :: w, v, rfl, ?_, hv⟩
      intro c hc
      rcases List.mem_cons.1 hc with rfl | hc
      · exact h
      · exact hw c hc
    · refine ⟨[], d :: s, rfl, Spaces.nil, ?_⟩
      intro c t e
      simp only [List.cons.injEq] at e
      rw [← e.1]; simpa using h

theorem trim_right (s : Str) : ∃ v w, s = v ++ w ∧ Spaces w ∧ ∀ t c, v = t ++ [c] → isSpace c = false := by
  induction s using List.reverseRecOn with
  | nil => exact ⟨[], [], rfl, Spaces.nil, by intro t c h; simp at h⟩
  | append_singleton s d ih =>
    by_cases h : isSpace d = true
    · obtain ⟨v, w, rfl, hw, hv⟩ := ih
      exact ⟨v, w ++ [d], by simp, hw.append (spaces_one d h), hv⟩
    · refine ⟨s ++ [d], [], by simp, Spaces.nil, ?_⟩
      intro t c e
      have := List.append_inj_right' e rfl
      simp only [List.cons.injEq, and_true] at this
      rw [← this]; simpa using h

theorem trim (s : Str) : ∃ w v w', s = w ++ (v ++ w') ∧ Spaces w ∧ Spaces w' ∧ Trimmed v := by
  obtain ⟨w, u, rfl, hw, hu⟩ := trim_left s
  obtain ⟨v, w', rfl, hw', hv⟩ := trim_right u
  refine ⟨w, v, w', rfl, hw, hw', ⟨?_, hv⟩⟩
  intro c t e
  exact hu c (t ++ w') (by rw [e]; rfl)

/-! ## More parse results -/

theorem backWhite_spaces (w t : Str) (hw : Spaces w) : backWhite (w ++ t) w.length = .ub := by
  induction w using List.reverseRecOn generalizing t with
  | nil => rfl
  | append_singleton w x ih =>
    rw [List.length_append, List.length_singleton]
    simp only [backWhite]
    have : (w ++ [x] ++ t)[w.length]? = some x := by
      rw [List.append_assoc, List.getElem?_append_right (by omega)]; simp
    rw [this]
    dsimp only
    rw [if_pos (hw x (by simp)), List.append_assoc]
    exact ih _ (fun d hd => hw d (by simp [hd]))

/-- `name =   # comment`: the value is empty, or contains the `#`. -/
theorem parse_empty_comment (pre name w1 V w4 comment w5 : Str) (hn : name ≠ []) (ht : Trimmed name)
    (h1 : '=' ∉ name) (h2 : '#' ∉ name) (h3 : NUL ∉ name) (hw1 : Spaces w1) (hV : Spaces V)
    (hw4 : Spaces w4) (hc : Trimmed comment) (hc3 : NUL ∉ comment) (hw5 : Spaces w5) :
    ∃ value, parseLine (pre ++ (name ++ (w1 ++ '=' :: (V ++ '#' :: (w4 ++ (comment ++ (w5 ++ [NUL]))))))) pre.length =
      .ok (name, value, if comment = [] then none else some comment) ∧
      (V = [] → value = []) ∧ (V ≠ [] → '#' ∈ value) := by
  obtain ⟨C, hC⟩ : ∃ C, C = w4 ++ (comment ++ (w5 ++ [NUL])) := ⟨_, rfl⟩
  rw [← hC]
  obtain ⟨e1, e2, P, e3, hPl, hPn, hPs, J, hPJ⟩ :=
    parse_head pre name w1 (V ++ '#' :: C) hn ht h1 h2 h3 hw1
  have hscan : scanLine (V ++ '#' :: C) (pre.length + name.length + w1.length + 1)
      (some (pre.length + name.length + w1.length)) = (some (pre.length + name.length + w1.length),
        some (pre.length + name.length + w1.length + 1 + V.length)) := by
    rw [scanLine_skip' (hV.not_mem isSpace_hash) (hV.not_mem isSpace_NUL)]
    simp only [scanLine]
    rw [if_neg (by decide), if_pos trivial, if_neg (by simp)]
  have hcs : cstr (pre ++ (name ++ (w1 ++ '=' :: (V ++ '#' :: C)))) pre.length =
      name ++ (w1 ++ '=' :: (V ++ '#' :: (w4 ++ (comment ++ w5)))) := by
    have := cstr_app (a := pre) (s := name ++ (w1 ++ '=' :: (V ++ '#' :: (w4 ++ (comment ++ w5))))) (t := []) (by
      simp only [List.mem_append, List.mem_cons, not_or]
      exact ⟨h3, hw1.not_mem isSpace_NUL, by decide, hV.not_mem isSpace_NUL,
        by decide, hw4.not_mem isSpace_NUL, hc3, hw5.not_mem isSpace_NUL⟩)
    rw [hC]
    simpa using this
  unfold parseLine
  dsimp only
  rw [e1, e2, hscan]
  dsimp only
  rw [e3, hcs]
  simp only [Res.bind_ok]
  obtain ⟨K, eK, hKl, hKh⟩ : ∃ K, (V ++ '#' :: C).set 0 NUL = NUL :: K ++ C ∧ K.length = V.length ∧
      (V ≠ [] → ∃ K', K = K' ++ ['#']) := by
    cases V with
    | nil => exact ⟨[], rfl, rfl, fun h => absurd rfl h⟩
    | cons x w => exact ⟨w ++ ['#'], by simp, by simp, fun _ => ⟨w, rfl⟩⟩
  have hs := strTerm_app' (b := P ++ (V ++ '#' :: C))
    (p := pre.length + name.length + w1.length + 1 + V.length)
    P V ('#' :: C) hPn hPs (by simp) (by rw [hPl]) hV
  rw [hs, eK]
  simp only [Res.bind_ok]
  have hskv : skipWhite (pre ++ (name ++ (w1 ++ '=' :: (V ++ '#' :: C)))) (pre.length + name.length + w1.length + 1)
      = P.length + V.length := by
    have := skipWhite_app (a := pre ++ (name ++ (w1 ++ ['=']))) (w := V) (t := '#' :: C) hV
      (by intro c s h; simp only [List.cons.injEq] at h; rw [← h.1]; exact isSpace_hash)
    rw [hPl]
    simpa [Nat.add_assoc] using this
  rw [hskv]
  obtain ⟨Q, hQ⟩ : ∃ Q, Q = P ++ (NUL :: K) := ⟨_, rfl⟩
  have hQl : Q.length = pre.length + name.length + w1.length + 1 + V.length + 1 := by
    rw [hQ]; simp [hPl, hKl]; omega
  have hbuf : P ++ (NUL :: K ++ C) = Q ++ C := by rw [hQ]; simp
  rw [hbuf, ← hQl]
  have hnmQ : ∀ T, cstr (Q ++ T) pre.length = name := by
    intro T
    rw [hQ, hPJ]
    have := cstr_app (a := pre) (s := name) (t := J ++ (NUL :: (K ++ T))) h3
    simpa using this
  have hvlQ : ∀ T, (V = [] → cstr (Q ++ T) (P.length + V.length) = []) ∧
      (V ≠ [] → '#' ∈ cstr (Q ++ T) (P.length + V.length)) := by
    intro T
    constructor
    · intro hV0
      subst hV0
      have hK0 : K = [] := List.length_eq_zero_iff.1 (by simpa using hKl)
      rw [hQ, hK0]
      have := cstr_app (a := P) (s := []) (t := T) (by simp)
      simpa using this
    · intro hV0
      obtain ⟨K', rfl⟩ := hKh hV0
      have e : Q ++ T = (P ++ NUL :: K') ++ ('#' :: T) := by rw [hQ]; simp
      have el : P.length + V.length = (P ++ NUL :: K').length := by
        rw [← hKl]; simp
      unfold cstr
      rw [e, el, List.drop_left, List.takeWhile_cons_of_pos (by decide)]
      simp
  by_cases hce : comment = []
  · subst hce
    have hC' : C = (w4 ++ w5) ++ [NUL] := by rw [hC]; simp
    have hskc : skipWhite (pre ++ (name ++ (w1 ++ '=' :: (V ++ '#' :: C)))) Q.length
        = Q.length + (w4 ++ w5).length := by
      have := skipWhite_app (a := pre ++ (name ++ (w1 ++ '=' :: (V ++ ['#'])))) (w := w4 ++ w5) (t := [NUL])
        (hw4.append hw5) (by intro c s h; simp only [List.cons.injEq] at h; rw [← h.1]; exact isSpace_NUL)
      rw [hQl, hC']
      have hlen : (pre ++ (name ++ (w1 ++ '=' :: (V ++ ['#'])))).length =
        pre.length + name.length + w1.length + 1 + V.length + 1 := by simp; omega
      rw [hlen] at this
      simpa using this
    rw [hskc]
    have hnul : (Q ++ C)[Q.length + (w4 ++ w5).length]? = some NUL := by
      rw [hC', List.getElem?_append_right (by omega)]
      have : Q.length + (w4 ++ w5).length - Q.length = (w4 ++ w5).length := by omega
      rw [this, List.getElem?_append_right (by omega)]; simp
    rw [hnul]
    simp only [if_true, Res.pure_eq_ok]
    rw [hnmQ]
    exact ⟨_, rfl, (hvlQ C).1, (hvlQ C).2⟩
  · have hskc : skipWhite (pre ++ (name ++ (w1 ++ '=' :: (V ++ '#' :: C)))) Q.length
        = Q.length + w4.length := by
      have := skipWhite_app (a := pre ++ (name ++ (w1 ++ '=' :: (V ++ ['#'])))) (w := w4) (t := comment ++ (w5 ++ [NUL]))
        hw4 (by intro c s h
                cases comment with
                | nil => exact absurd rfl hce
                | cons x value => simp only [List.cons_append, List.cons.injEq] at h; exact hc.1 c value (by rw [h.1]))
      rw [hQl, hC]
      have hlen : (pre ++ (name ++ (w1 ++ '=' :: (V ++ ['#'])))).length =
        pre.length + name.length + w1.length + 1 + V.length + 1 := by simp; omega
      rw [hlen] at this
      simpa using this
    rw [hskc]
    obtain ⟨x, cm, rfl⟩ : ∃ x cm, comment = x :: cm := by
      cases comment with
      | nil => exact absurd rfl hce
      | cons x cm => exact ⟨x, cm, rfl⟩
    have hx : (Q ++ C)[Q.length + w4.length]? = some x := by
      rw [hC, List.getElem?_append_right (by omega)]
      have : Q.length + w4.length - Q.length = w4.length := by omega
      rw [this, List.getElem?_append_right (by omega)]; simp
    have hxn : x ≠ NUL := by rintro rfl; exact hc3 (by simp)
    rw [hx]
    simp only [if_neg hxn]
    have hs2 := strTerm_app' (b := Q ++ C)
      (p := pre.length + (name ++ (w1 ++ '=' :: (V ++ '#' :: (w4 ++ (x :: cm ++ w5))))).length)
      (Q ++ w4 ++ (x :: cm)) w5 [NUL] (by simp) (last_append hce hc.2) (by rw [hC]; simp) (by simp [hQl]; omega) hw5
    rw [hs2]
    simp only [Res.bind_ok, Res.pure_eq_ok]
    obtain ⟨M, eM⟩ : ∃ M, (w5 ++ [NUL]).set 0 NUL = NUL :: M := by
      cases w5 with
      | nil => exact ⟨[], rfl⟩
      | cons x w => exact ⟨w ++ [NUL], by simp⟩
    rw [eM]
    have a1 : Q ++ w4 ++ (x :: cm) ++ NUL :: M = Q ++ (w4 ++ ((x :: cm) ++ NUL :: M)) := by simp
    have hcm : cstr (Q ++ w4 ++ (x :: cm) ++ NUL :: M) (Q.length + w4.length) = x :: cm := by
      have := cstr_app (a := Q ++ w4) (s := x :: cm) (t := M) hc3
      rw [List.length_append] at this
      simpa using this
    rw [hcm, a1, hnmQ]
    refine ⟨cstr (Q ++ (w4 ++ ((x :: cm) ++ NUL :: M))) (P.length + V.length), ?_, (hvlQ _).1, (hvlQ _).2⟩
    simp

/-! ## What a line can produce -/

/-- Facts about a stored parameter that hold for every input file. -/
structure FilePar (p : Par) : Prop where
  name_ne : p.name ≠ []
  name_trim : Trimmed p.name
  name_chars : '=' ∉ p.name ∧ '#' ∉ p.name ∧ '\n' ∉ p.name ∧ NUL ∉ p.name
  name_first : ∀ t, p.name ≠ '<' :: t
  value_ok : '#' ∉ p.value → Trimmed p.value ∧ '\n' ∉ p.value ∧ NUL ∉ p.value
  comment_ok : ∀ c, p.comment = some c → c ≠ [] ∧ Trimmed c ∧ '\n' ∉ c ∧ NUL ∉ c

/-- Facts about a stored block that hold for every input file. -/
structure FileBlock (b : Block) : Prop where
  name_ok : '>' ∉ b.name → Trimmed b.name ∧ '\n' ∉ b.name ∧ NUL ∉ b.name
  pars : ∀ p ∈ b.pars, FilePar p

/-- A line as delivered by `fgets` from a file without NUL characters: a newline only at the end. -/
def IsLine (l : Str) : Prop := NUL ∉ l ∧ ∀ a t, l = a ++ '\n' :: t → t = []

/-- A trimmed part of a line contains no newline. -/
theorem no_newline {l a v t : Str} (hl : IsLine l) (e : l = a ++ (v ++ t)) (hv : Trimmed v) : '\n' ∉ v := by
  intro hm
  obtain ⟨x, y, rfl⟩ := List.append_of_mem hm
  have := hl.2 (a ++ x) (y ++ t) (by rw [e]; simp)
  have hy : y = [] := by
    cases y with
    | nil => rfl
    | cons _ _ => simp at this
  subst hy
  have := hv.2 x '\n' rfl
  revert this; decide

theorem mem_sub {l a v t : Str} (e : l = a ++ (v ++ t)) {c : Char} (h : c ∉ l) : c ∉ v := by
  intro hm; apply h; rw [e]; simp [hm]

/-- Every parameter line that is accepted. -/
theorem parse_line_facts (line w0 L : Str) (hl : IsLine line) (e : line = w0 ++ L) (hw0 : Spaces w0)
    (c0 : Char) (u0 : Str) (hL : L = c0 :: u0) (hc0 : isSpace c0 = false) (hlt : c0 ≠ '<')
    (n v : Str) (c : Option Str) (hp : parseLine (line ++ [NUL]) w0.length = .ok (n, v, c)) :
    FilePar ⟨n, v, c⟩ := by
  have hLN : NUL ∉ L := fun h => hl.1 (by rw [e]; simp [h])
  have hsk0 : skipWhite (w0 ++ (L ++ [NUL])) w0.length = w0.length := by
    have := skipWhite_app (a := w0) (w := []) (t := L ++ [NUL]) Spaces.nil (by
      intro d s h; rw [hL, List.cons_append, List.cons.injEq] at h; rw [← h.1]; exact hc0)
    simpa using this
  have hb : line ++ [NUL] = w0 ++ (L ++ [NUL]) := by rw [e]; simp
  -- first '#', then first '='
  obtain ⟨A, T, hAT, hA⟩ : ∃ A T, L = A ++ T ∧ '#' ∉ A ∧ (T = [] ∨ ∃ C, T = '#' :: C) := by
    rcases split_first '#' L with h | ⟨a, t, h, ha⟩
    · exact ⟨L, [], by simp, h, .inl rfl⟩
    · exact ⟨a, '#' :: t, h, ha, .inr ⟨t, rfl⟩⟩
  rcases split_first '=' A with hA2 | ⟨N, R, hNR, hN⟩
  · -- no '=' : fatal
    exfalso
    have hAN : NUL ∉ A := fun h => hLN (by rw [hAT]; simp [h])
    have hscan : (scanLine (L ++ [NUL]) w0.length none).1 = none := by
      rw [hAT, List.append_assoc, scanLine_skip hA2 hA.1 hAN]
      rcases hA.2 with rfl | ⟨C, rfl⟩
      · simp [scanLine]
      · simp only [List.cons_append, scanLine]
        rw [if_neg (by decide), if_pos trivial, if_neg (by decide)]
    rw [hb] at hp
    unfold parseLine at hp
    dsimp only at hp
    rw [hsk0, List.drop_left, hscan] at hp
    simp at hp
  · have hNh : '#' ∉ N := fun h => hA.1 (by rw [hNR]; simp [h])
    have hRh : '#' ∉ R := fun h => hA.1 (by rw [hNR]; simp [h])
    have hNN : NUL ∉ N := fun h => hLN (by rw [hAT, hNR]; simp [h])
    have hRN : NUL ∉ R := fun h => hLN (by rw [hAT, hNR]; simp [h])
    by_cases hN0 : N = []
    · -- line begins with '='
      exfalso
      subst hN0
      have hL' : L = '=' :: (R ++ T) := by rw [hAT, hNR]; simp
      have hscan : (scanLine (L ++ [NUL]) w0.length none).1 = some w0.length := by
        rw [hL', List.cons_append]
        simp only [scanLine]
        rw [if_neg (by decide), if_neg (by decide), if_pos ⟨trivial, trivial⟩, List.append_assoc, scanLine_skip' hRh hRN]
        rcases hA.2 with rfl | ⟨C, rfl⟩
        · simp [scanLine]
        · simp only [List.cons_append, scanLine]
          rw [if_neg (by decide), if_pos trivial, if_neg (by simp)]
      have hub : strTerm (w0 ++ (L ++ [NUL])) w0.length = .ub := by
        unfold strTerm; rw [backWhite_spaces w0 _ hw0]; rfl
      rw [hb] at hp
      unfold parseLine at hp
      dsimp only at hp
      rw [hsk0, List.drop_left, hscan] at hp
      dsimp only at hp
      rw [hub] at hp
      split at hp <;> simp at hp
    · obtain ⟨name, w1, hnm, hw1, hnr⟩ := trim_right N
      obtain ⟨N', hN'⟩ : ∃ N', N = c0 :: N' := by
        cases N with
        | nil => exact absurd rfl hN0
        | cons x N' =>
          rw [hAT, hNR] at hL
          simp only [List.cons_append, List.cons.injEq] at hL
          exact ⟨N', by rw [hL.1]⟩
      have hne : name ≠ [] := by
        rintro rfl
        rw [List.nil_append] at hnm
        rw [← hnm, hN'] at hw1
        have := hw1 c0 (by simp)
        rw [hc0] at this; simp at this
      have hname0 : ∃ n', name = c0 :: n' := by
        cases name with
        | nil => exact absurd rfl hne
        | cons x n' =>
          rw [hN', List.cons_append, List.cons.injEq] at hnm
          exact ⟨n', by rw [hnm.1]⟩
      have htn : Trimmed name := by
        refine ⟨?_, hnr⟩
        intro d t ed
        obtain ⟨n', en⟩ := hname0
        rw [en, List.cons.injEq] at ed
        rw [← ed.1]; exact hc0
      have hn1 : '=' ∉ name := fun h => hN (by rw [hnm]; simp [h])
      have hn2 : '#' ∉ name := fun h => hNh (by rw [hnm]; simp [h])
      have hn3 : NUL ∉ name := fun h => hNN (by rw [hnm]; simp [h])
      have hlinee : line = w0 ++ (name ++ (w1 ++ '=' :: (R ++ T))) := by
        rw [e, hAT, hNR, hnm]; simp
      have hn4 : '\n' ∉ name := no_newline hl hlinee htn
      have hn5 : ∀ t, name ≠ '<' :: t := by
        intro t et
        obtain ⟨n', en⟩ := hname0
        rw [en, List.cons.injEq] at et
        exact hlt et.1
      obtain ⟨w2, value, w3, hR, hw2, hw3, hv⟩ := trim R
      have hv2 : '#' ∉ value := fun h => hRh (by rw [hR]; simp [h])
      have hv3 : NUL ∉ value := fun h => hRN (by rw [hR]; simp [h])
      have hlinev : line = (w0 ++ (name ++ (w1 ++ '=' :: w2))) ++ (value ++ (w3 ++ T)) := by
        rw [hlinee, hR]; simp
      have hv4 : '\n' ∉ value := no_newline hl hlinev hv
      rcases hA.2 with rfl | ⟨C, rfl⟩
      · -- no comment
        have hpar := parse_plain w0 name w1 w2 value w3 hne htn hn1 hn2 hn3 hw1 hw2 hv hv2 hv3 hw3
        have hbuf : line ++ [NUL] = w0 ++ (name ++ (w1 ++ '=' :: (w2 ++ (value ++ (w3 ++ [NUL]))))) := by
          rw [hlinev]; simp
        rw [hbuf, hpar] at hp
        simp only [Res.ok.injEq, Prod.mk.injEq] at hp
        obtain ⟨rfl, rfl, rfl⟩ := hp
        exact ⟨hne, htn, ⟨hn1, hn2, hn4, hn3⟩, hn5, fun _ => ⟨hv, hv4, hv3⟩, by intro c hc; simp at hc⟩
      · obtain ⟨w4, comment, w5, hC, hw4, hw5, hcm⟩ := trim C
        have hc3 : NUL ∉ comment := fun h => hLN (by rw [hAT, hC]; simp [h])
        have hlinec : line = (w0 ++ (name ++ (w1 ++ '=' :: (w2 ++ (value ++ (w3 ++ '#' :: w4)))))) ++ (comment ++ w5) := by
          rw [hlinev, hC]; simp
        have hc4 : '\n' ∉ comment := no_newline hl hlinec hcm
        have hcom : ∀ d, (if comment = [] then none else some comment) = some d →
            d ≠ [] ∧ Trimmed d ∧ '\n' ∉ d ∧ NUL ∉ d := by
          intro d hd
          split_ifs at hd with h0
          simp only [Option.some.injEq] at hd
          subst hd
          exact ⟨h0, hcm, hc4, hc3⟩
        by_cases hve : value = []
        · subst hve
          obtain ⟨val, hpar, hV1, hV2⟩ := parse_empty_comment w0 name w1 (w2 ++ w3) w4 comment w5 hne htn hn1 hn2 hn3 hw1
            (hw2.append hw3) hw4 hcm hc3 hw5
          have hbuf : line ++ [NUL] = w0 ++ (name ++ (w1 ++ '=' :: (w2 ++ w3 ++ '#' :: (w4 ++ (comment ++ (w5 ++ [NUL])))))) := by
            rw [hlinec]; simp
          rw [hbuf, hpar] at hp
          simp only [Res.ok.injEq, Prod.mk.injEq] at hp
          obtain ⟨rfl, rfl, rfl⟩ := hp
          refine ⟨hne, htn, ⟨hn1, hn2, hn4, hn3⟩, hn5, ?_, hcom⟩
          intro hnh
          by_cases hV : w2 ++ w3 = []
          · have := hV1 hV
            subst this
            exact ⟨hv, hv4, hv3⟩
          · exact absurd (hV2 hV) hnh
        · have hpar := parse_comment w0 name w1 w2 value w3 w4 comment w5 hne htn hn1 hn2 hn3 hw1 hw2 hve hv hv2 hv3 hw3
            hw4 hcm hc3 hw5
          have hbuf : line ++ [NUL] = w0 ++ (name ++ (w1 ++ '=' :: (w2 ++ (value ++ (w3 ++ '#' :: (w4 ++ (comment ++ (w5 ++ [NUL])))))))) := by
            rw [hlinec]; simp
          rw [hbuf, hpar] at hp
          simp only [Res.ok.injEq, Prod.mk.injEq] at hp
          obtain ⟨rfl, rfl, rfl⟩ := hp
          exact ⟨hne, htn, ⟨hn1, hn2, hn4, hn3⟩, hn5, fun _ => ⟨hv, hv4, hv3⟩, hcom⟩

/-- Every block line that is accepted. -/
theorem block_line_facts (line w0 T : Str) (hl : IsLine line) (e : line = w0 ++ '<' :: T)
    (n : Str) (hp : lineBlockName (line ++ [NUL]) w0.length = .ok n) :
    '>' ∉ n → Trimmed n ∧ '\n' ∉ n ∧ NUL ∉ n := by
  have hTN : NUL ∉ T := fun h => hl.1 (by rw [e]; simp [h])
  obtain ⟨w, U, hU, hw, hUs⟩ := trim_left T
  have hsk : skipWhite (w0 ++ '<' :: (w ++ (U ++ [NUL]))) (w0.length + 1) = (w0 ++ '<' :: w).length := by
    have := skipWhite_app (a := w0 ++ ['<']) (w := w) (t := U ++ [NUL]) hw (by
      intro d s h
      cases U with
      | nil => simp only [List.nil_append, List.cons.injEq] at h; rw [← h.1]; exact isSpace_NUL
      | cons x U => simp only [List.cons_append, List.cons.injEq] at h; exact hUs d U (by rw [h.1]))
    simp only [List.length_append, List.length_cons] at this ⊢
    simpa [Nat.add_assoc, Nat.add_comm 1] using this
  have hbuf : line ++ [NUL] = w0 ++ '<' :: (w ++ (U ++ [NUL])) := by rw [e, hU]; simp
  have hUN : NUL ∉ U := fun h => hTN (by rw [hU]; simp [h])
  rcases split_first '>' U with hno | ⟨M, t, hMt, hM⟩
  · exfalso
    rw [hbuf] at hp
    unfold lineBlockName at hp
    dsimp only at hp
    have hre : w0 ++ '<' :: (w ++ (U ++ [NUL])) = (w0 ++ '<' :: w) ++ (U ++ [NUL]) := by simp
    rw [hsk, hre, List.drop_left] at hp
    have htw : (U ++ [NUL]).takeWhile (fun c => decide (c ≠ NUL ∧ c ≠ '>')) = U := by
      apply takeWhile_app
      · intro c hc
        simp only [decide_eq_true_eq]
        exact ⟨by rintro rfl; exact hUN hc, by rintro rfl; exact hno hc⟩
      · intro c s h; simp only [List.cons.injEq] at h; rw [← h.1]; simp
    rw [htw, List.getElem?_append_right (by omega)] at hp
    have : (w0 ++ '<' :: w).length + U.length - (w0 ++ '<' :: w).length = U.length := by omega
    rw [this, List.getElem?_append_right (by omega)] at hp
    simp only [Nat.sub_self, List.getElem?_cons_zero] at hp
    rw [if_pos (by decide)] at hp
    simp at hp
  · obtain ⟨name, w', hnm, hw', hnr⟩ := trim_right M
    have hg : '>' ∉ name := fun h => hM (by rw [hnm]; simp [h])
    have hn3 : NUL ∉ name := fun h => hUN (by rw [hMt, hnm]; simp [h])
    have hlinee : line = (w0 ++ '<' :: w) ++ (name ++ (w' ++ '>' :: t)) := by
      rw [e, hU, hMt, hnm]; simp
    have hname : name ≠ [] ∨ M = [] := by
      by_cases h : name = []
      · right
        rw [h, List.nil_append] at hnm
        cases hM0 : M with
        | nil => rfl
        | cons x M' =>
          have hx : isSpace x = false := hUs x (M' ++ '>' :: t) (by rw [hMt, hM0]; rfl)
          rw [← hnm] at hw'
          have := hw' x (by rw [hM0]; simp)
          rw [hx] at this; simp at this
      · exact .inl h
    have htn : Trimmed name := by
      refine ⟨?_, hnr⟩
      intro d s ed
      exact hUs d (s ++ (w' ++ '>' :: t)) (by rw [hMt, hnm, ed]; simp)
    have hn4 : '\n' ∉ name := no_newline hl hlinee htn
    by_cases hcase : name ≠ [] ∨ w ++ w' = []
    · have hb := block_name w0 w name w' (t ++ [NUL]) hw hw' htn hcase hg hn3
      have hbuf2 : line ++ [NUL] = w0 ++ '<' :: (w ++ (name ++ (w' ++ '>' :: (t ++ [NUL])))) := by
        rw [hlinee]; simp
      rw [hbuf2, hb] at hp
      simp only [Res.ok.injEq] at hp
      subst hp
      intro _; exact ⟨htn, hn4, hn3⟩
    · -- `<  >`: the name starts with '>'
      intro hng
      exfalso
      have hM0 : M = [] := by
        rcases hname with h | h
        · exact absurd (.inl h) hcase
        · exact h
      subst hM0
      have hname0 : name = [] ∧ w' = [] := by
        have := hnm.symm
        simpa using this
      obtain ⟨rfl, rfl⟩ := hname0
      rw [hbuf, hMt] at hp
      unfold lineBlockName at hp
      dsimp only at hp
      rw [hMt] at hsk
      have hre : w0 ++ '<' :: (w ++ ([] ++ '>' :: t ++ [NUL])) = (w0 ++ '<' :: w) ++ ('>' :: (t ++ [NUL])) := by simp
      rw [hsk, hre, List.drop_left, List.takeWhile_cons_of_neg (by decide)] at hp
      simp only [List.length_nil, Nat.add_zero] at hp
      rw [List.getElem?_append_right (by omega)] at hp
      simp only [Nat.sub_self, List.getElem?_cons_zero] at hp
      rw [if_neg (by simp)] at hp
      have hwne : w ≠ [] := by
        intro h; exact hcase (.inr (by rw [h]; rfl))
      have hst := strTerm_app (b := (w0 ++ '<' :: w) ++ ('>' :: (t ++ [NUL]))) (p := (w0 ++ '<' :: w).length)
        w0 '<' w ('>' :: (t ++ [NUL])) (by simp) (by simp; omega) isSpace_lt hw
      rw [hst] at hp
      simp only [Res.bind_ok, Res.pure_eq_ok, Res.ok.injEq] at hp
      obtain ⟨x, w2, rfl⟩ : ∃ x w2, w = x :: w2 := by
        cases w with
        | nil => exact absurd rfl hwne
        | cons x w2 => exact ⟨x, w2, rfl⟩
      have hre2 : w0 ++ '<' :: (x :: w2 ++ '>' :: (t ++ [NUL])).set 0 NUL = (w0 ++ '<' :: NUL :: w2) ++ ('>' :: (t ++ [NUL])) := by
        simp
      have hlen : (w0 ++ '<' :: x :: w2).length = (w0 ++ '<' :: NUL :: w2).length := by simp
      rw [hre2, hlen] at hp
      unfold cstr at hp
      rw [List.drop_left, List.takeWhile_cons_of_pos (by decide)] at hp
      apply hng
      rw [← hp]; simp

/-! ## The invariant of `par_open` -/

def FileDB (db : DB) : Prop := ∀ b ∈ db, FileBlock b

theorem isLine_fgets : ∀ (s : Str) (k : Nat) (cur : Str), NUL ∉ cur → NUL ∉ s → '\n' ∉ cur →
    ∀ l ∈ fgetsLines k cur s, IsLine l := by
  intro s
  induction s with
  | nil =>
    intro k cur h1 _ h3 l hl
    simp only [fgetsLines] at hl
    split_ifs at hl
    · simp at hl
    · rw [List.mem_singleton] at hl; subst hl
      exact ⟨h1, fun a t e => absurd (by rw [e]; simp) h3⟩
  | cons c s ih =>
    intro k cur h1 h2 h3 l hl
    simp only [List.mem_cons, not_or] at h2
    simp only [fgetsLines] at hl
    have hcn : NUL ∉ cur ++ [c] := by simp only [List.mem_append, List.mem_singleton, not_or]; exact ⟨h1, h2.1⟩
    split_ifs at hl with hc
    · rcases List.mem_cons.1 hl with rfl | hl
      · refine ⟨hcn, fun a t e => ?_⟩
        cases t using List.reverseRecOn with
        | nil => rfl
        | append_singleton t d =>
          exfalso
          have e' : cur ++ [c] = (a ++ '\n' :: t) ++ [d] := by rw [e]; simp
          have := List.append_inj_left' e' rfl
          exact h3 (by rw [this]; simp)
      · exact ih _ _ (by simp) h2.2 (by simp) l hl
    · refine ih _ _ hcn h2.2 ?_ l hl
      simp only [List.mem_append, List.mem_singleton, not_or]
      exact ⟨h3, fun e => hc (.inl e.symm)⟩

theorem fileBlock_addPar {b : Block} {p : Par} (hb : FileBlock b) (hp : FilePar p) :
    FileBlock (addPar b p.name p.value p.comment) := by
  refine ⟨hb.name_ok, ?_⟩
  show ∀ q ∈ addParList b.pars p.name p.value p.comment, FilePar q
  have hps := hb.pars
  revert hps
  generalize b.pars = ps
  intro hps
  induction ps with
  | nil => intro q hq; simp only [addParList, List.mem_singleton] at hq; subst hq; exact hp
  | cons x ps ih =>
    intro q hq
    simp only [addParList] at hq
    have hx := hps x (by simp)
    split_ifs at hq with hn
    · rcases List.mem_cons.1 hq with rfl | hq
      · refine ⟨hx.name_ne, hx.name_trim, hx.name_chars, hx.name_first, hp.value_ok, ?_⟩
        intro c hc
        dsimp only at hc
        split at hc
        · exact hx.comment_ok c hc
        · rename_i d hd
          exact hp.comment_ok c (by rw [hd]; exact hc)
      · exact hps q (by simp [hq])
    · rcases List.mem_cons.1 hq with rfl | hq
      · exact hx
      · exact ih (fun q hq => hps q (by simp [hq])) q hq

theorem fileDB_openLines (ls : List Str) : ∀ (db : DB) (bp : Option Nat) (db' : DB),
    (∀ l ∈ ls, IsLine l) → FileDB db → openLines ls db bp = .ok db' → FileDB db' := by
  induction ls with
  | nil => intro db bp db' _ h e; simp only [openLines, Res.ok.injEq] at e; subst e; exact h
  | cons l ls ih =>
    intro db bp db' hls h e
    have hl := hls l (by simp)
    have hls' : ∀ l ∈ ls, IsLine l := fun q hq => hls q (by simp [hq])
    obtain ⟨w0, L, hL, hw0, hLs⟩ := trim_left l
    have hsk : skipWhite (l ++ [NUL]) 0 = w0.length := by
      have := skipWhite_app (a := []) (w := w0) (t := L ++ [NUL]) hw0 (by
        intro c s ec
        cases L with
        | nil => simp only [List.nil_append, List.cons.injEq] at ec; rw [← ec.1]; exact isSpace_NUL
        | cons x L => simp only [List.cons_append, List.cons.injEq] at ec; exact hLs c L (by rw [ec.1]))
      rw [hL]; simpa using this
    simp only [openLines] at e
    rw [hsk] at e
    have hget : (l ++ [NUL])[w0.length]? = (L ++ [NUL]).head? := by
      rw [hL, List.append_assoc, List.getElem?_append_right (by omega)]
      simp only [Nat.sub_self]
      cases L <;> rfl
    rw [hget] at e
    cases hLc : L with
    | nil =>
      rw [hLc] at e
      simp only [List.nil_append, List.head?_cons, if_true] at e
      exact ih _ _ _ hls' h e
    | cons c0 u0 =>
      rw [hLc] at e
      simp only [List.cons_append, List.head?_cons] at e
      have hc0 : isSpace c0 = false := hLs c0 u0 hLc
      split_ifs at e with h1 h2 h3 h4
      · exact ih _ _ _ hls' h e
      · exact ih _ _ _ hls' h e
      · simp only [Res.ok.injEq] at e; subst e; exact h
      · cases hn : lineBlockName (l ++ [NUL]) w0.length with
        | ok nm =>
          rw [hn] at e
          simp only [Res.bind_ok] at e
          have hfact := block_line_facts l w0 u0 hl (by rw [hL, hLc, h4]) nm hn
          refine ih _ _ _ hls' ?_ e
          unfold addBlock
          split
          · exact h
          · intro b hb
            rcases List.mem_append.1 hb with hb | hb
            · exact h b hb
            · rw [List.mem_singleton] at hb; subst hb
              exact ⟨hfact, by simp⟩
        | fatal => rw [hn] at e; simp at e
        | ub => rw [hn] at e; simp at e
      · cases bp with
        | none => simp at e
        | some i =>
          dsimp only at e
          cases hn : parseLine (l ++ [NUL]) w0.length with
          | ok nm =>
            obtain ⟨n, v, c⟩ := nm
            rw [hn] at e
            simp only [Res.bind_ok] at e
            have hfact := parse_line_facts l w0 L hl hL hw0 c0 u0 hLc hc0 h4 n v c hn
            refine ih _ _ _ hls' ?_ e
            intro b hb
            rcases mem_modify hb with hb | ⟨y, hy, rfl⟩
            · exact h b hb
            · exact fileBlock_addPar (h y hy) hfact
          | fatal => rw [hn] at e; simp at e
          | ub => rw [hn] at e; simp at e

/-- **C53.** Whatever the input file (any text without NUL characters, of any size): the names stored
are non-empty, without surrounding white space, without `=`, `#` or newline and not starting with `<`;
the comments are non-empty and trimmed; and a value that does not contain `#`, a block name that does
not contain `>`, is trimmed and free of newlines. -/
theorem open_clean (file : Str) (hN : NUL ∉ file) (db : DB) (h : parOpen file [] = .ok db) :
    ∀ b ∈ db, FileBlock b :=
  fileDB_openLines _ [] none db (isLine_fgets file _ _ (by simp) hN (by simp)) (by intro b hb; simp at hb) h

/-- **C04 for databases read from a file**: unless a value came out with a `#` or empty with a comment,
or a block name with a `>` or as `par_end` (the cases in which the code goes wrong), writing what was
read from any file and reading it again gives the same database. -/
theorem reread_partial (file : Str) (hN : NUL ∉ file) (db : DB) (h : parOpen file [] = .ok db)
    (hv : ∀ b ∈ db, ∀ p ∈ b.pars, '#' ∉ p.value ∧ (p.value = [] → p.comment = none))
    (hb : ∀ b ∈ db, '>' ∉ b.name ∧ b.name ≠ "par_end".toList)
    (hfit : LinesFit db) (rest : Str) :
    ∃ db', parOpen (parDump 2 db ++ rest) [] = .ok db' ∧ contents db' = contents db := by
  have hf := open_clean file hN db h
  refine dump_open_partial db ⟨unique_openLines _ _ _ _ ⟨by simp, by simp⟩ h, ?_⟩ (fun b hm => (hb b hm).2) hfit rest
  intro b hm
  have hbf := hf b hm
  have hn := hbf.name_ok (hb b hm).1
  refine ⟨hn.1, ⟨(hb b hm).1, hn.2.1, hn.2.2⟩, ?_⟩
  intro p hp
  have hpf := hbf.pars p hp
  have hvp := hv b hm p hp
  have hval := hpf.value_ok hvp.1
  exact ⟨hpf.name_ne, hpf.name_trim, hpf.name_chars, hpf.name_first, hval.1, ⟨hvp.1, hval.2.1, hval.2.2⟩,
    hpf.comment_ok, hvp.2⟩

/-- Non-vacuity: an input file with odd spacing. -/
example : parOpen "  # comment\n <  job  > x\n\t a  b=  1 2\t#  c # d \n\nz=\n".toList [] = .ok
    [⟨"job".toList, [⟨"a  b".toList, "1 2".toList, some "c # d".toList⟩, ⟨"z".toList, [], none⟩], 4, 3⟩] := by
  decide

end Athena.Par
