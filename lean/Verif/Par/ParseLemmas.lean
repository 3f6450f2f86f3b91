import Verif.Par.DbLemmas
import Mathlib.Tactic.Linarith
import Mathlib.Data.List.Induction

/-! Lemmas on parsing: what `lineBlockName` and `parseLine` make of a line of a given form. -/

namespace Athena.Par

def Spaces (w : Str) : Prop := ∀ c ∈ w, isSpace c = true

/-- No white space at either end. -/
def Trimmed (s : Str) : Prop :=
  (∀ c t, s = c :: t → isSpace c = false) ∧ (∀ t c, s = t ++ [c] → isSpace c = false)

theorem isSpace_NUL : isSpace NUL = false := by decide
theorem isSpace_eq : isSpace '=' = false := by decide
theorem isSpace_hash : isSpace '#' = false := by decide
theorem isSpace_lt : isSpace '<' = false := by decide
theorem isSpace_gt : isSpace '>' = false := by decide

theorem Spaces.append {a b : Str} (ha : Spaces a) (hb : Spaces b) : Spaces (a ++ b) := by
  intro c hc
  rcases List.mem_append.1 hc with h | h
  · exact ha c h
  · exact hb c h

theorem Spaces.nil : Spaces [] := by intro c h; simp at h

theorem Spaces.not_mem {w : Str} (h : Spaces w) {c : Char} (hc : isSpace c = false) : c ∉ w := by
  intro hm; rw [h c hm] at hc; simp at hc

theorem takeWhile_app {p : Char → Bool} {w t : Str} (hw : ∀ c ∈ w, p c = true)
    (ht : ∀ c s, t = c :: s → p c = false) : (w ++ t).takeWhile p = w := by
  induction w with
  | nil =>
    cases t with
    | nil => rfl
    | cons c s => rw [List.nil_append, List.takeWhile_cons_of_neg (by simp [ht c s rfl])]
  | cons x w ih =>
    rw [List.cons_append, List.takeWhile_cons_of_pos (hw x (by simp)), ih (fun c hc => hw c (by simp [hc]))]

theorem skipWhite_app {a w t : Str} (hw : Spaces w) (ht : ∀ c s, t = c :: s → isSpace c = false) :
    skipWhite (a ++ (w ++ t)) a.length = a.length + w.length := by
  unfold skipWhite
  rw [List.drop_left, takeWhile_app hw ht]

theorem backWhite_app (a : Str) (c : Char) (hc : isSpace c = false) :
    ∀ (w t : Str), Spaces w → backWhite (a ++ c :: (w ++ t)) (a.length + 1 + w.length) = .ok a.length := by
  intro w
  induction w using List.reverseRecOn with
  | nil =>
    intro t _
    show backWhite _ (a.length + 1) = _
    simp only [backWhite]
    rw [List.getElem?_append_right (by omega)]
    simp [hc]
  | append_singleton w x ih =>
    intro t hw
    have hlen : a.length + 1 + (w ++ [x]).length = (a.length + 1 + w.length) + 1 := by simp; omega
    rw [hlen]
    simp only [backWhite]
    have hx : (a ++ c :: (w ++ [x] ++ t))[a.length + 1 + w.length]? = some x := by
      rw [List.getElem?_append_right (by omega)]
      have : a.length + 1 + w.length - a.length = w.length + 1 := by omega
      rw [this, List.getElem?_cons_succ, List.append_assoc, List.getElem?_append_right (by omega)]
      simp
    rw [hx]
    dsimp only
    rw [if_pos (hw x (by simp)), List.append_assoc]
    exact ih ([x] ++ t) (fun d hd => hw d (by simp [hd]))

theorem strTerm_app {b : Str} {p : Nat} (a : Str) (c : Char) (w t : Str) (hb : b = a ++ c :: (w ++ t))
    (hp : p = a.length + 1 + w.length) (hc : isSpace c = false) (hw : Spaces w) :
    strTerm b p = .ok (a ++ c :: (w ++ t).set 0 NUL) := by
  subst hb hp
  unfold strTerm
  rw [backWhite_app a c hc w t hw]
  simp only [Res.bind_ok, Res.pure_eq_ok]
  congr 1
  rw [List.set_append_right _ _ (by omega)]
  have : a.length + 1 - a.length = 1 := by omega
  rw [this]; rfl

theorem strTerm_app' {b : Str} {p : Nat} (s w t : Str) (hs : s ≠ []) (hl : ∀ u c, s = u ++ [c] → isSpace c = false)
    (hb : b = s ++ (w ++ t)) (hp : p = s.length + w.length) (hw : Spaces w) :
    strTerm b p = .ok (s ++ (w ++ t).set 0 NUL) := by
  obtain ⟨u, c, rfl⟩ : ∃ u c, s = u ++ [c] := ⟨s.dropLast, s.getLast hs, (List.dropLast_append_getLast hs).symm⟩
  have := strTerm_app (b := b) (p := p) u c w t (by rw [hb]; simp) (by rw [hp]; simp) (hl u c rfl) hw
  rw [this]; simp

theorem cstr_app {a s t : Str} (hs : NUL ∉ s) : cstr (a ++ (s ++ NUL :: t)) a.length = s := by
  unfold cstr
  rw [List.drop_left]
  apply takeWhile_app
  · intro c hc; simp only [decide_eq_true_eq]; rintro rfl; exact hs hc
  · intro c u h; simp only [List.cons.injEq] at h; rw [← h.1]; simp

/-- Putting a NUL at the start of `w ++ c :: t`. -/
theorem set_zero_split (w : Str) (c : Char) (t : Str) (hc : isSpace c = false) :
    ∃ J, (w ++ c :: t).set 0 NUL = (NUL :: J) ++ t ∧ J.length = w.length ∧
      ∀ u d, NUL :: J = u ++ [d] → isSpace d = false := by
  cases w with
  | nil =>
    refine ⟨[], rfl, rfl, ?_⟩
    intro u d h
    have := congrArg List.getLast? h
    simp at this
    rw [← this]; exact isSpace_NUL
  | cons x w =>
    refine ⟨w ++ [c], by simp, by simp, ?_⟩
    intro u d h
    have := congrArg List.getLast? h
    rw [← List.cons_append] at this
    simp only [List.getLast?_append, List.getLast?_singleton, Option.some_or, Option.some.injEq] at this
    rw [← this]; exact hc

theorem scanLine_skip {s t : Str} {i : Nat} (h1 : '=' ∉ s) (h2 : '#' ∉ s) (h3 : NUL ∉ s) :
    scanLine (s ++ t) i none = scanLine t (i + s.length) none := by
  induction s generalizing i with
  | nil => rfl
  | cons c s ih =>
    simp only [List.mem_cons, not_or] at h1 h2 h3
    rw [List.cons_append]
    simp only [scanLine]
    rw [if_neg (fun e => h3.1 e.symm), if_neg (fun e => h2.1 e.symm), if_neg (fun e => h1.1 e.1.symm),
      ih h1.2 h2.2 h3.2, List.length_cons]
    congr 1; omega

theorem scanLine_skip' {s t : Str} {i e : Nat} (h2 : '#' ∉ s) (h3 : NUL ∉ s) :
    scanLine (s ++ t) i (some e) = scanLine t (i + s.length) (some e) := by
  induction s generalizing i with
  | nil => rfl
  | cons c s ih =>
    simp only [List.mem_cons, not_or] at h2 h3
    rw [List.cons_append]
    simp only [scanLine]
    rw [if_neg (fun e => h3.1 e.symm), if_neg (fun e => h2.1 e.symm), if_neg (fun e => by simp at e),
      ih h2.2 h3.2, List.length_cons]
    congr 1; omega

/-- First part of `parseLine`, common to all forms of a line. -/
theorem parse_head (pre name w1 R : Str) (hn : name ≠ []) (ht : Trimmed name) (h1 : '=' ∉ name)
    (h2 : '#' ∉ name) (h3 : NUL ∉ name) (hw1 : Spaces w1) :
    skipWhite (pre ++ (name ++ (w1 ++ '=' :: R))) pre.length = pre.length ∧
    scanLine ((pre ++ (name ++ (w1 ++ '=' :: R))).drop pre.length) pre.length none =
      scanLine R (pre.length + name.length + w1.length + 1) (some (pre.length + name.length + w1.length)) ∧
    ∃ P, strTerm (pre ++ (name ++ (w1 ++ '=' :: R))) (pre.length + name.length + w1.length) = .ok (P ++ R) ∧
      P.length = pre.length + name.length + w1.length + 1 ∧ P ≠ [] ∧
      (∀ u d, P = u ++ [d] → isSpace d = false) ∧ (∃ J, P = pre ++ (name ++ NUL :: J)) := by
  refine ⟨?_, ?_, ?_⟩
  · have := skipWhite_app (a := pre) (w := []) (t := name ++ (w1 ++ '=' :: R)) Spaces.nil (by
      intro c s h
      cases name with
      | nil => exact absurd rfl hn
      | cons x name =>
        simp only [List.cons_append, List.cons.injEq] at h
        exact ht.1 c name (by rw [h.1]))
    simpa using this
  · rw [List.drop_left, scanLine_skip h1 h2 h3, scanLine_skip (hw1.not_mem isSpace_eq)
      (hw1.not_mem isSpace_hash) (hw1.not_mem isSpace_NUL)]
    simp only [scanLine]
    rw [if_neg (by decide), if_neg (by decide), if_pos ⟨trivial, trivial⟩]
  · obtain ⟨J, e, hl, hj⟩ := set_zero_split w1 '=' R isSpace_eq
    refine ⟨pre ++ (name ++ NUL :: J), ?_, ?_, ?_, ?_, ⟨J, rfl⟩⟩
    · rw [strTerm_app' (pre ++ name) w1 ('=' :: R) (by simp [hn]) ?_ (by simp) (by simp) hw1, e]
      · simp
      · intro u c h
        obtain ⟨n', x, rfl⟩ : ∃ u c, name = u ++ [c] :=
          ⟨name.dropLast, name.getLast hn, (List.dropLast_append_getLast hn).symm⟩
        rw [← List.append_assoc] at h
        have := List.append_inj_right' h rfl
        simp only [List.cons.injEq, and_true] at this
        subst this
        exact ht.2 n' x rfl
    · simp [hl]; omega
    · simp
    · intro u d h
      have hne : (NUL :: J) ≠ [] := by simp
      obtain ⟨j', x, e'⟩ : ∃ u c, (NUL :: J) = u ++ [c] :=
        ⟨(NUL :: J).dropLast, (NUL :: J).getLast hne, (List.dropLast_append_getLast hne).symm⟩
      rw [e', ← List.append_assoc, ← List.append_assoc] at h
      have := List.append_inj_right' h rfl
      simp only [List.cons.injEq, and_true] at this
      subst this
      exact hj j' x e'

theorem last_append {s v : Str} (hv : v ≠ []) (h : ∀ u c, v = u ++ [c] → isSpace c = false) :
    ∀ u c, s ++ v = u ++ [c] → isSpace c = false := by
  intro u c e
  obtain ⟨v', x, rfl⟩ : ∃ u c, v = u ++ [c] :=
    ⟨v.dropLast, v.getLast hv, (List.dropLast_append_getLast hv).symm⟩
  rw [← List.append_assoc] at e
  have := List.append_inj_right' e rfl
  simp only [List.cons.injEq, and_true] at this
  subst this
  exact h v' x rfl

/-- `name = value` without a comment. -/
theorem parse_plain (pre name w1 w2 value w3 : Str) (hn : name ≠ []) (ht : Trimmed name) (h1 : '=' ∉ name)
    (h2 : '#' ∉ name) (h3 : NUL ∉ name) (hw1 : Spaces w1) (hw2 : Spaces w2) (hv : Trimmed value)
    (hv2 : '#' ∉ value) (hv3 : NUL ∉ value) (hw3 : Spaces w3) :
    parseLine (pre ++ (name ++ (w1 ++ '=' :: (w2 ++ (value ++ (w3 ++ [NUL])))))) pre.length =
      .ok (name, value, none) := by
  obtain ⟨e1, e2, P, e3, hPl, hPn, hPs, J, hPJ⟩ :=
    parse_head pre name w1 (w2 ++ (value ++ (w3 ++ [NUL]))) hn ht h1 h2 h3 hw1
  have hscan : scanLine (w2 ++ (value ++ (w3 ++ [NUL]))) (pre.length + name.length + w1.length + 1)
      (some (pre.length + name.length + w1.length)) = (some (pre.length + name.length + w1.length), none) := by
    rw [scanLine_skip' (hw2.not_mem isSpace_hash) (hw2.not_mem isSpace_NUL), scanLine_skip' hv2 hv3,
      scanLine_skip' (hw3.not_mem isSpace_hash) (hw3.not_mem isSpace_NUL)]
    simp [scanLine]
  have hcs : cstr (pre ++ (name ++ (w1 ++ '=' :: (w2 ++ (value ++ (w3 ++ [NUL])))))) pre.length =
      name ++ (w1 ++ '=' :: (w2 ++ (value ++ w3))) := by
    have := cstr_app (a := pre) (s := name ++ (w1 ++ '=' :: (w2 ++ (value ++ w3)))) (t := []) (by
      simp only [List.mem_append, List.mem_cons, not_or]
      exact ⟨h3, hw1.not_mem isSpace_NUL, by decide, hw2.not_mem isSpace_NUL, hv3, hw3.not_mem isSpace_NUL⟩)
    simpa using this
  unfold parseLine
  dsimp only
  rw [e1, e2, hscan]
  dsimp only
  rw [e3, hcs]
  simp only [Res.bind_ok]
  by_cases hve : value = []
  · subst hve
    have hs := strTerm_app' (b := P ++ (w2 ++ ([] ++ (w3 ++ [NUL])))) (p := pre.length + (name ++ (w1 ++ '=' :: (w2 ++ ([] ++ w3)))).length)
      P (w2 ++ w3) [NUL] hPn hPs (by simp) (by simp [hPl]; omega) (hw2.append hw3)
    rw [hs]
    simp only [Res.bind_ok, Res.pure_eq_ok]
    -- value pointer: the final NUL
    have hsk : skipWhite (pre ++ (name ++ (w1 ++ '=' :: (w2 ++ ([] ++ (w3 ++ [NUL])))))) (pre.length + name.length + w1.length + 1)
        = P.length + (w2 ++ w3).length := by
      have := skipWhite_app (a := pre ++ (name ++ (w1 ++ ['=']))) (w := w2 ++ w3) (t := [NUL]) (hw2.append hw3)
        (by intro c s h; simp only [List.cons.injEq] at h; rw [← h.1]; exact isSpace_NUL)
      rw [hPl]
      simpa [Nat.add_assoc] using this
    rw [hsk]
    obtain ⟨K, eK, hK⟩ : ∃ K, (w2 ++ w3 ++ [NUL]).set 0 NUL = K ++ [NUL] ∧ K.length = (w2 ++ w3).length := by
      cases h : w2 ++ w3 with
      | nil => exact ⟨[], rfl, rfl⟩
      | cons x w => exact ⟨NUL :: w, by simp, by simp⟩
    rw [eK]
    have hnm : cstr (P ++ (K ++ [NUL])) pre.length = name := by
      rw [hPJ]
      have := cstr_app (a := pre) (s := name) (t := J ++ (K ++ [NUL])) h3
      simpa using this
    have hvl : cstr (P ++ (K ++ [NUL])) (P.length + (w2 ++ w3).length) = [] := by
      have := cstr_app (a := P ++ K) (s := []) (t := []) (by simp)
      rw [List.length_append, hK] at this
      simpa using this
    rw [hnm, hvl]
  · have hs := strTerm_app' (b := P ++ (w2 ++ (value ++ (w3 ++ [NUL])))) (p := pre.length + (name ++ (w1 ++ '=' :: (w2 ++ (value ++ w3)))).length)
      (P ++ w2 ++ value) w3 [NUL] (by simp [hve]) (last_append hve hv.2) (by simp) (by simp [hPl]; omega) hw3
    rw [hs]
    simp only [Res.bind_ok, Res.pure_eq_ok]
    have hsk : skipWhite (pre ++ (name ++ (w1 ++ '=' :: (w2 ++ (value ++ (w3 ++ [NUL])))))) (pre.length + name.length + w1.length + 1)
        = P.length + w2.length := by
      have := skipWhite_app (a := pre ++ (name ++ (w1 ++ ['=']))) (w := w2) (t := value ++ (w3 ++ [NUL])) hw2
        (by intro c s h
            cases value with
            | nil => exact absurd rfl hve
            | cons x value => simp only [List.cons_append, List.cons.injEq] at h; exact hv.1 c value (by rw [h.1]))
      rw [hPl]
      simpa [Nat.add_assoc] using this
    rw [hsk]
    obtain ⟨K, eK⟩ : ∃ K, (w3 ++ [NUL]).set 0 NUL = NUL :: K := by
      cases w3 with
      | nil => exact ⟨[], rfl⟩
      | cons x w => exact ⟨w ++ [NUL], by simp⟩
    rw [eK]
    have hnm : cstr (P ++ w2 ++ value ++ NUL :: K) pre.length = name := by
      rw [hPJ]
      have := cstr_app (a := pre) (s := name) (t := J ++ (w2 ++ (value ++ NUL :: K))) h3
      simpa using this
    have hvl : cstr (P ++ w2 ++ value ++ NUL :: K) (P.length + w2.length) = value := by
      have := cstr_app (a := P ++ w2) (s := value) (t := K) hv3
      rw [List.length_append] at this
      simpa using this
    rw [hnm, hvl]

/-- `name = value # comment`, value not empty.  `comment` may be empty. -/
theorem parse_comment (pre name w1 w2 value w3 w4 comment w5 : Str) (hn : name ≠ []) (ht : Trimmed name)
    (h1 : '=' ∉ name) (h2 : '#' ∉ name) (h3 : NUL ∉ name) (hw1 : Spaces w1) (hw2 : Spaces w2)
    (hve : value ≠ []) (hv : Trimmed value) (hv2 : '#' ∉ value) (hv3 : NUL ∉ value) (hw3 : Spaces w3)
    (hw4 : Spaces w4) (hc : Trimmed comment) (hc3 : NUL ∉ comment) (hw5 : Spaces w5) :
    parseLine (pre ++ (name ++ (w1 ++ '=' :: (w2 ++ (value ++ (w3 ++ '#' :: (w4 ++ (comment ++ (w5 ++ [NUL]))))))))) pre.length =
      .ok (name, value, if comment = [] then none else some comment) := by
  obtain ⟨C, hC⟩ : ∃ C, C = w4 ++ (comment ++ (w5 ++ [NUL])) := ⟨_, rfl⟩
  rw [← hC]
  obtain ⟨e1, e2, P, e3, hPl, hPn, hPs, J, hPJ⟩ :=
    parse_head pre name w1 (w2 ++ (value ++ (w3 ++ '#' :: C))) hn ht h1 h2 h3 hw1
  have hscan : scanLine (w2 ++ (value ++ (w3 ++ '#' :: C))) (pre.length + name.length + w1.length + 1)
      (some (pre.length + name.length + w1.length)) = (some (pre.length + name.length + w1.length),
        some (pre.length + name.length + w1.length + 1 + w2.length + value.length + w3.length)) := by
    rw [scanLine_skip' (hw2.not_mem isSpace_hash) (hw2.not_mem isSpace_NUL), scanLine_skip' hv2 hv3,
      scanLine_skip' (hw3.not_mem isSpace_hash) (hw3.not_mem isSpace_NUL)]
    simp only [scanLine]
    rw [if_neg (by decide), if_pos trivial, if_neg (by simp)]
  have hcs : cstr (pre ++ (name ++ (w1 ++ '=' :: (w2 ++ (value ++ (w3 ++ '#' :: C)))))) pre.length =
      name ++ (w1 ++ '=' :: (w2 ++ (value ++ (w3 ++ '#' :: (w4 ++ (comment ++ w5)))))) := by
    have := cstr_app (a := pre) (s := name ++ (w1 ++ '=' :: (w2 ++ (value ++ (w3 ++ '#' :: (w4 ++ (comment ++ w5))))))) (t := []) (by
      simp only [List.mem_append, List.mem_cons, not_or]
      exact ⟨h3, hw1.not_mem isSpace_NUL, by decide, hw2.not_mem isSpace_NUL, hv3, hw3.not_mem isSpace_NUL,
        by decide, hw4.not_mem isSpace_NUL, hc3, hw5.not_mem isSpace_NUL⟩)
    rw [hC]
    simpa using this
  unfold parseLine
  dsimp only
  rw [e1, e2, hscan]
  dsimp only
  rw [e3, hcs]
  simp only [Res.bind_ok]
  -- terminate the value
  obtain ⟨K, eK, hKl, hKs⟩ := set_zero_split w3 '#' C isSpace_hash
  have hs := strTerm_app' (b := P ++ (w2 ++ (value ++ (w3 ++ '#' :: C))))
    (p := pre.length + name.length + w1.length + 1 + w2.length + value.length + w3.length)
    (P ++ w2 ++ value) w3 ('#' :: C) (by simp [hve]) (last_append hve hv.2) (by simp) (by simp [hPl]; try omega) hw3
  rw [hs, eK]
  simp only [Res.bind_ok]
  have hskv : skipWhite (pre ++ (name ++ (w1 ++ '=' :: (w2 ++ (value ++ (w3 ++ '#' :: C)))))) (pre.length + name.length + w1.length + 1)
      = P.length + w2.length := by
    have := skipWhite_app (a := pre ++ (name ++ (w1 ++ ['=']))) (w := w2) (t := value ++ (w3 ++ '#' :: C)) hw2
      (by intro c s h
          cases value with
          | nil => exact absurd rfl hve
          | cons x value => simp only [List.cons_append, List.cons.injEq] at h; exact hv.1 c value (by rw [h.1]))
    rw [hPl]
    simpa [Nat.add_assoc] using this
  rw [hskv]
  obtain ⟨Q, hQ⟩ : ∃ Q, Q = P ++ w2 ++ value ++ (NUL :: K) := ⟨_, rfl⟩
  have hQl : Q.length = pre.length + name.length + w1.length + 1 + w2.length + value.length + w3.length + 1 := by
    rw [hQ]; simp [hPl, hKl]; omega
  have hbuf : P ++ w2 ++ value ++ (NUL :: K ++ C) = Q ++ C := by rw [hQ]; simp
  rw [hbuf, ← hQl]
  have hnmQ : ∀ T, cstr (Q ++ T) pre.length = name := by
    intro T
    rw [hQ, hPJ]
    have := cstr_app (a := pre) (s := name) (t := J ++ (w2 ++ (value ++ NUL :: (K ++ T)))) h3
    simpa using this
  have hvlQ : ∀ T, cstr (Q ++ T) (P.length + w2.length) = value := by
    intro T
    rw [hQ]
    have := cstr_app (a := P ++ w2) (s := value) (t := K ++ T) hv3
    rw [List.length_append] at this
    simpa using this
  by_cases hce : comment = []
  · subst hce
    have hC' : C = (w4 ++ w5) ++ [NUL] := by rw [hC]; simp
    have hskc : skipWhite (pre ++ (name ++ (w1 ++ '=' :: (w2 ++ (value ++ (w3 ++ '#' :: C)))))) Q.length
        = Q.length + (w4 ++ w5).length := by
      have := skipWhite_app (a := pre ++ (name ++ (w1 ++ '=' :: (w2 ++ (value ++ (w3 ++ ['#'])))))) (w := w4 ++ w5) (t := [NUL])
        (hw4.append hw5) (by intro c s h; simp only [List.cons.injEq] at h; rw [← h.1]; exact isSpace_NUL)
      rw [hQl, hC']
      have hlen : (pre ++ (name ++ (w1 ++ '=' :: (w2 ++ (value ++ (w3 ++ ['#'])))))).length =
        pre.length + name.length + w1.length + 1 + w2.length + value.length + w3.length + 1 := by simp; omega
      rw [hlen] at this
      simpa using this
    rw [hskc]
    have hnul : (Q ++ C)[Q.length + (w4 ++ w5).length]? = some NUL := by
      rw [hC', List.getElem?_append_right (by omega)]
      have : Q.length + (w4 ++ w5).length - Q.length = (w4 ++ w5).length := by omega
      rw [this, List.getElem?_append_right (by omega)]; simp
    rw [hnul]
    simp only [if_true, Res.pure_eq_ok]
    rw [hnmQ, hvlQ]
  · have hskc : skipWhite (pre ++ (name ++ (w1 ++ '=' :: (w2 ++ (value ++ (w3 ++ '#' :: C)))))) Q.length
        = Q.length + w4.length := by
      have := skipWhite_app (a := pre ++ (name ++ (w1 ++ '=' :: (w2 ++ (value ++ (w3 ++ ['#'])))))) (w := w4) (t := comment ++ (w5 ++ [NUL]))
        hw4 (by intro c s h
                cases comment with
                | nil => exact absurd rfl hce
                | cons x value => simp only [List.cons_append, List.cons.injEq] at h; exact hc.1 c value (by rw [h.1]))
      rw [hQl, hC]
      have hlen : (pre ++ (name ++ (w1 ++ '=' :: (w2 ++ (value ++ (w3 ++ ['#'])))))).length =
        pre.length + name.length + w1.length + 1 + w2.length + value.length + w3.length + 1 := by simp; omega
      rw [hlen] at this
      simpa using this
    rw [hskc]
    obtain ⟨x, cm, rfl⟩ : ∃ x cm, comment = x :: cm := by
      cases comment with
      | nil => exact absurd rfl hce
      | cons x cm => exact ⟨x, cm, rfl⟩
    have hx : (Q ++ C)[Q.length + w4.length]? = some x := by
      rw [hC, List.getElem?_append_right (by omega)]
      have : Q.length + w4.length - Q.length = w4.length := by omega
      rw [this, List.getElem?_append_right (by omega)]; simp
    have hxn : x ≠ NUL := by rintro rfl; exact hc3 (by simp)
    rw [hx]
    simp only [if_neg hxn]
    have hs2 := strTerm_app' (b := Q ++ C)
      (p := pre.length + (name ++ (w1 ++ '=' :: (w2 ++ (value ++ (w3 ++ '#' :: (w4 ++ (x :: cm ++ w5))))))).length)
      (Q ++ w4 ++ (x :: cm)) w5 [NUL] (by simp) (last_append hce hc.2) (by rw [hC]; simp) (by simp [hQl]; omega) hw5
    rw [hs2]
    simp only [Res.bind_ok, Res.pure_eq_ok]
    obtain ⟨M, eM⟩ : ∃ M, (w5 ++ [NUL]).set 0 NUL = NUL :: M := by
      cases w5 with
      | nil => exact ⟨[], rfl⟩
      | cons x w => exact ⟨w ++ [NUL], by simp⟩
    rw [eM]
    have a1 : Q ++ w4 ++ (x :: cm) ++ NUL :: M = Q ++ (w4 ++ ((x :: cm) ++ NUL :: M)) := by simp
    have hcm : cstr (Q ++ w4 ++ (x :: cm) ++ NUL :: M) (Q.length + w4.length) = x :: cm := by
      have := cstr_app (a := Q ++ w4) (s := x :: cm) (t := M) hc3
      rw [List.length_append] at this
      simpa using this
    rw [hcm, a1, hnmQ, hvlQ]
    simp

/-- `<name>`: block name without white space at either end, no `>`; anything may follow. -/
theorem block_name (pre w name w' t : Str) (hw : Spaces w) (hw' : Spaces w') (ht : Trimmed name)
    (hne : name ≠ [] ∨ w ++ w' = []) (hg : '>' ∉ name) (h3 : NUL ∉ name) :
    lineBlockName (pre ++ '<' :: (w ++ (name ++ (w' ++ '>' :: t)))) pre.length = .ok name := by
  obtain ⟨A, hA⟩ : ∃ A, A = pre ++ '<' :: w := ⟨_, rfl⟩
  have hb : pre ++ '<' :: (w ++ (name ++ (w' ++ '>' :: t))) = A ++ (name ++ (w' ++ '>' :: t)) := by
    rw [hA]; simp
  have hAl : A.length = pre.length + 1 + w.length := by rw [hA]; simp; omega
  have hhead : ∀ c s, name ++ (w' ++ '>' :: t) = c :: s → isSpace c = false := by
    intro c s h
    cases name with
    | nil =>
      have hww : w' = [] := by
        rcases hne with h | h
        · exact absurd rfl h
        · simp at h; exact h.2
      subst hww
      simp only [List.nil_append, List.cons.injEq] at h
      rw [← h.1]; exact isSpace_gt
    | cons x name => simp only [List.cons_append, List.cons.injEq] at h; exact ht.1 c name (by rw [h.1])
  have hsp : skipWhite (pre ++ '<' :: (w ++ (name ++ (w' ++ '>' :: t)))) (pre.length + 1) = A.length := by
    have := skipWhite_app (a := pre ++ ['<']) (w := w) (t := name ++ (w' ++ '>' :: t)) hw hhead
    rw [hAl]
    simpa using this
  unfold lineBlockName
  dsimp only
  rw [hsp, hb, List.drop_left]
  have htw : (name ++ (w' ++ '>' :: t)).takeWhile (fun c => decide (c ≠ NUL ∧ c ≠ '>')) = name ++ w' := by
    have := takeWhile_app (p := fun c => decide (c ≠ NUL ∧ c ≠ '>')) (w := name ++ w') (t := '>' :: t) (by
      intro c hc
      simp only [decide_eq_true_eq]
      rcases List.mem_append.1 hc with hc | hc
      · exact ⟨by rintro rfl; exact h3 hc, by rintro rfl; exact hg hc⟩
      · exact ⟨by rintro rfl; exact hw'.not_mem isSpace_NUL hc, by rintro rfl; exact hw'.not_mem isSpace_gt hc⟩)
      (by intro c s h; simp only [List.cons.injEq] at h; rw [← h.1]; simp)
    rw [← this, List.append_assoc]
  rw [htw]
  have hget : (A ++ (name ++ (w' ++ '>' :: t)))[A.length + (name ++ w').length]? = some '>' := by
    rw [List.getElem?_append_right (by omega)]
    have : A.length + (name ++ w').length - A.length = (name ++ w').length := by omega
    rw [this, ← List.append_assoc, List.getElem?_append_right (by omega)]; simp
  rw [hget]
  simp only [ne_eq, not_true_eq_false, if_false]
  obtain ⟨K, eK, hK⟩ : ∃ K, (w' ++ '>' :: t).set 0 NUL = NUL :: K ∧ True := by
    cases w' with
    | nil => exact ⟨t, rfl, trivial⟩
    | cons x w => exact ⟨w ++ '>' :: t, by simp, trivial⟩
  have hs := strTerm_app' (b := A ++ (name ++ (w' ++ '>' :: t))) (p := A.length + (name ++ w').length)
    (A ++ name) w' ('>' :: t) (by rw [hA]; simp) (by
      by_cases hn : name = []
      · subst hn
        have hww : w = [] := by
          rcases hne with h | h
          · exact absurd rfl h
          · simp at h; exact h.1
        subst hww
        rw [hA]
        intro u c h
        simp only [List.append_nil] at h
        have := List.append_inj_right' h rfl
        simp only [List.cons.injEq, and_true] at this
        rw [← this]; exact isSpace_lt
      · exact last_append hn ht.2) (by simp) (by simp; omega) hw'
  rw [hs, eK]
  simp only [Res.bind_ok, Res.pure_eq_ok]
  congr 1
  have := cstr_app (a := A) (s := name) (t := K) h3
  simpa using this

end Athena.Par
