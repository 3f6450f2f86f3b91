import Verif.Join.Ex

/-!
# Files of different variables are not joined
-/

namespace Athena.Join

/-- The sorted array has the same files as the command line, and as many as the three counts say. -/
theorem sortDoms_perm (Q : Qsort) {ds l : List Dom} {nX nY nZ : ℕ} (h : sortDoms Q ds = .ok (l, nX, nY, nZ)) :
    l.Perm ds ∧ l.length = nZ * (nY * nX) := by
  unfold sortDoms sortBy at h
  dsimp only at h
  generalize hz : count ((Q.sort (fun d => d.file.head.oz) ds).map fun d => d.file.head.oz) = zc at h
  by_cases c1 : ds.length % zc ≠ 0
  · rw [if_pos c1] at h; cases h
  rw [if_neg c1] at h
  generalize hl1 : (cat zc fun i => Q.sort (fun d => d.file.head.oy) (chunk (ds.length / zc) i (Q.sort (fun d => d.file.head.oz) ds))) = l1 at h
  generalize hy : count ((chunk (ds.length / zc) 0 l1).map fun d => d.file.head.oy) = yc at h
  by_cases c2 : ds.length / zc % yc ≠ 0
  · rw [if_pos c2] at h; cases h
  rw [if_neg c2] at h
  simp only [Res.ok.injEq, Prod.mk.injEq] at h
  obtain ⟨e, e1, e2, e3⟩ := h
  push Not at c1 c2
  have n1 : ds.length = zc * (ds.length / zc) := (Nat.mul_div_cancel' (Nat.dvd_of_mod_eq_zero c1)).symm
  have n2 : ds.length / zc = yc * (ds.length / zc / yc) := (Nat.mul_div_cancel' (Nat.dvd_of_mod_eq_zero c2)).symm
  have p0 := Q.perm (fun d => d.file.head.oz) ds
  have p1 : l1.Perm ds := by
    rw [← hl1]
    refine (cat_perm fun i _ => Q.perm _ _).trans ?_
    rw [cat_chunk (by rw [p0.length_eq]; exact n1)]
    exact p0
  have p2 : l.Perm ds := by
    rw [← e]
    refine (cat_perm fun i _ => Q.perm _ _).trans ?_
    rw [cat_chunk]
    · exact p1
    · rw [p1.length_eq, mul_comm yc zc, mul_assoc, ← n2]
      exact n1
  refine ⟨p2, ?_⟩
  rw [p2.length_eq, ← e1, ← e2, ← e3, ← n2, ← n1]

/-- Every file has a place. -/
theorem fill_place {l : List Dom} {nX nY nZ : ℕ} (hl : l.length = nZ * (nY * nX)) {d : Dom} (hd : d ∈ l) :
    ∃ x ∈ places nX nY nZ, fill l nX nY x = d := by
  obtain ⟨m, hm, rfl⟩ := List.getElem_of_mem hd
  have hm' : m < nZ * (nY * nX) := hl ▸ hm
  have hX : 0 < nX := by
    rcases Nat.eq_zero_or_pos nX with h | h
    · subst h; simp at hm'
    · exact h
  have hY : 0 < nY := by
    rcases Nat.eq_zero_or_pos nY with h | h
    · subst h; simp at hm'
    · exact h
  refine ⟨(m / nX / nY, m / nX % nY, m % nX), ?_, ?_⟩
  · simp only [places, cat, List.mem_flatMap, List.mem_range, List.mem_singleton]
    refine ⟨m / nX / nY, ?_, m / nX % nY, Nat.mod_lt _ hY, m % nX, Nat.mod_lt _ hX, rfl⟩
    rw [Nat.div_div_eq_div_mul]
    exact Nat.div_lt_of_lt_mul (by rwa [mul_comm nX nY, mul_comm])
  · have e : m % nX + nX * (m / nX % nY + nY * (m / nX / nY)) = m := by
      rw [Nat.mod_add_div, Nat.mod_add_div]
    unfold fill
    dsimp only
    rw [e, List.getD_eq_getElem?_getD, List.getElem?_eq_getElem hm]
    rfl

theorem initDoms_mem : ∀ {fs : List VFile} {ds : List Dom}, initDoms fs = .ok ds → ∀ f ∈ fs, ∃ d ∈ ds, d.file = f
  | [], _, _, f, hf => by cases hf
  | g :: fs, ds, h, f, hf => by
    unfold initDoms at h
    cases h1 : initDom g with
    | fatal => rw [h1] at h; cases h
    | ub => rw [h1] at h; cases h
    | ok d =>
      cases h2 : initDoms fs with
      | fatal => rw [h1, h2] at h; cases h
      | ub => rw [h1, h2] at h; cases h
      | ok ds' =>
        rw [h1, h2] at h
        cases h
        rcases List.mem_cons.1 hf with rfl | hf
        · exact ⟨d, List.mem_cons_self, by rw [initDom_domOf h1]; rfl⟩
        · obtain ⟨d', hd', e⟩ := initDoms_mem h2 f hf
          exact ⟨d', List.mem_cons_of_mem _ hd', e⟩

/-- If the first variable is joined, every file has its lines. -/
theorem joinVars_same {N : Idx → Dom} {nX nY nZ fuel : ℕ} {pos : Idx → ℕ} {out body : List Byte}
    (h : joinVars N nX nY nZ fuel pos out = .ok body) {s : Seen} {p : ℕ} (h0 : readLine (N (0, 0, 0)).file.body (pos (0, 0, 0)) = .ok (some (s, p))) :
    ∀ x ∈ places nX nY nZ, ∃ q, readLine (N x).file.body (pos x) = .ok (some (s, q)) := by
  cases fuel with
  | zero => cases h
  | succ fuel =>
    unfold joinVars at h
    rw [h0] at h
    dsimp only at h
    by_cases c : s.fmt ≠ sFloat
    · rw [if_pos c] at h; cases h
    rw [if_neg c] at h
    by_cases c2 : ((places nX nY nZ).all fun x => (startOf s (N x).file.body (pos x)).isSome) = false
    · rw [if_pos c2] at h; cases h
    rw [Bool.not_eq_false, List.all_eq_true] at c2
    intro x hx
    have := c2 x hx
    unfold startOf at this
    cases e : readLine (N x).file.body (pos x) with
    | fatal => simp [e] at this
    | ub => simp [e] at this
    | ok o =>
      cases o with
      | none => simp [e] at this
      | some sp =>
        obtain ⟨s', q⟩ := sp
        simp only [e] at this
        by_cases hs : s' = s
        · exact ⟨q, by rw [hs]⟩
        · simp [hs] at this

/-- What is read first of a file that was written. -/
theorem readLine_dump (nz ny nx : ℕ) (v : Var) (D : ℕ → ℕ → ℕ → List Byte) (l : List Field) (hv : Word v.name) :
    ∃ p, readLine (dumpBody nz ny nx ((v, D) :: l)) 0 = .ok (some (⟨v.kind, v.name, sFloat⟩, p)) := by
  have := readLine_var [] [] (dumpData nz ny nx D ++ dumpRest nz ny nx l) v (by simp) hv
  exact ⟨v.line.length, by simpa [dumpBody] using this⟩

theorem kind_inj {v w : Var} (h : v.kind = w.kind) : v.vec = w.vec := by
  unfold Var.kind at h
  cases h1 : v.vec <;> cases h2 : w.vec <;> simp only [h1, h2] at h ⊢
  · exact absurd h (by decide)
  · exact absurd h (by decide)

/-- **Files of different variables are refused.**  Whatever files are named, and in whatever order: if each begins with a variable, and in two of them these variables
differ in kind or name, no joined file is written. -/
theorem join_refuses (Q : Qsort) {fs : List VFile} (hall : ∀ f ∈ fs, ∃ nz ny nx v D l, Word v.name ∧ f.body = dumpBody nz ny nx ((v, D) :: l))
    {f f' : VFile} (hf : f ∈ fs) (hf' : f' ∈ fs) {nz ny nx nz' ny' nx' : ℕ} {v v' : Var} {D D' : ℕ → ℕ → ℕ → List Byte} {l l' : List Field}
    (hv : Word v.name) (hv' : Word v'.name)
    (hb : f.body = dumpBody nz ny nx ((v, D) :: l)) (hb' : f'.body = dumpBody nz' ny' nx' ((v', D') :: l')) (hne : v ≠ v') :
    ∀ F, join Q fs ≠ .ok F := by
  intro F hF
  unfold join at hF
  by_cases c : fs.length < 2
  · rw [if_pos c] at hF; cases hF
  rw [if_neg c] at hF
  cases h1 : initDoms fs with
  | fatal => rw [h1] at hF; cases hF
  | ub => rw [h1] at hF; cases hF
  | ok ds =>
    rw [h1] at hF
    dsimp only at hF
    cases h2 : sortDoms Q ds with
    | fatal => rw [h2] at hF; cases hF
    | ub => rw [h2] at hF; cases hF
    | ok t =>
      obtain ⟨a, nX, nY, nZ⟩ := t
      rw [h2] at hF
      dsimp only at hF
      generalize hN : fill a nX nY = N at hF
      cases h3 : joinVars N nX nY nZ ((N (0, 0, 0)).file.body.length + 1) (fun _ => 0) [] with
      | fatal => rw [h3] at hF; cases hF
      | ub => rw [h3] at hF; cases hF
      | ok body =>
        obtain ⟨pa, la⟩ := sortDoms_perm Q h2
        have place : ∀ f ∈ fs, ∃ x ∈ places nX nY nZ, (N x).file = f := by
          intro f hf
          obtain ⟨d, hd, e⟩ := initDoms_mem h1 f hf
          obtain ⟨x, hx, e'⟩ := fill_place la (pa.mem_iff.2 hd)
          exact ⟨x, hx, by rw [← hN, e', e]⟩
        obtain ⟨x, hx, ex⟩ := place f hf
        obtain ⟨x', hx', ex'⟩ := place f' hf'
        obtain ⟨p, hp⟩ := readLine_dump nz ny nx v D l hv
        obtain ⟨p', hp'⟩ := readLine_dump nz' ny' nx' v' D' l' hv'
        have h0 : ∃ s p, readLine (N (0, 0, 0)).file.body 0 = .ok (some (s, p)) := by
          have hm : (N (0, 0, 0)).file ∈ fs := by
            have hlen : 0 < a.length := by
              rw [pa.length_eq]
              have : ds ≠ [] := by
                obtain ⟨d, hd, -⟩ := initDoms_mem h1 f hf
                exact List.ne_nil_of_mem hd
              exact List.length_pos_iff.2 this
            have e0 : N (0, 0, 0) = a[0] := by
              rw [← hN]
              unfold fill
              dsimp only
              rw [Nat.mul_zero, Nat.add_zero, Nat.mul_zero, Nat.add_zero, List.getD_eq_getElem?_getD, List.getElem?_eq_getElem hlen]
              rfl
            have hmem : a[0] ∈ ds := pa.mem_iff.1 (List.getElem_mem hlen)
            have : ∀ {fs : List VFile} {ds : List Dom}, initDoms fs = .ok ds → ∀ d ∈ ds, d.file ∈ fs := by
              intro fs
              induction fs with
              | nil => intro ds h d hd; cases h; cases hd
              | cons g fs ih =>
                intro ds h d hd
                unfold initDoms at h
                cases i1 : initDom g with
                | fatal => rw [i1] at h; cases h
                | ub => rw [i1] at h; cases h
                | ok d0 =>
                  cases i2 : initDoms fs with
                  | fatal => rw [i1, i2] at h; cases h
                  | ub => rw [i1, i2] at h; cases h
                  | ok ds' =>
                    rw [i1, i2] at h
                    cases h
                    rcases List.mem_cons.1 hd with rfl | hd
                    · rw [initDom_domOf i1]; exact List.mem_cons_self
                    · exact List.mem_cons_of_mem _ (ih i2 d hd)
            rw [e0]
            exact this h1 _ hmem
          obtain ⟨nz0, ny0, nx0, v0, D0, l0, w0, b0⟩ := hall _ hm
          obtain ⟨p0, hp0⟩ := readLine_dump nz0 ny0 nx0 v0 D0 l0 w0
          exact ⟨_, p0, by rw [b0]; exact hp0⟩
        obtain ⟨s, p0, h0⟩ := h0
        obtain ⟨q, hq⟩ := joinVars_same h3 h0 x hx
        obtain ⟨q', hq'⟩ := joinVars_same h3 h0 x' hx'
        rw [ex, hb, hp] at hq
        rw [ex', hb', hp'] at hq'
        simp only [Res.ok.injEq, Option.some.injEq, Prod.mk.injEq] at hq hq'
        have e : (⟨v.kind, v.name, sFloat⟩ : Seen) = ⟨v'.kind, v'.name, sFloat⟩ := hq.1.trans hq'.1.symm
        simp only [Seen.mk.injEq] at e
        apply hne
        cases v; cases v'
        simp only [Var.mk.injEq]
        exact ⟨kind_inj e.1, e.2.1⟩

/-- The hypotheses can be met: a file of density and a file of pressure. -/
example (Q : Qsort) : ∀ F, join Q [⟨⟨[], (2, 1, 1), 0, 0, 0, 1, 1, 1, 1⟩, dumpBody 1 1 1 [(⟨false, sDensity⟩, fun _ _ _ => [1, 2, 3, 4])]⟩,
    ⟨⟨[], (2, 1, 1), 1, 0, 0, 1, 1, 1, 1⟩, dumpBody 1 1 1 [(⟨false, str ['p']⟩, fun _ _ _ => [1, 2, 3, 4])]⟩] ≠ .ok F := by
  have w1 : Word sDensity := ⟨by decide, by decide⟩
  have w2 : Word (str ['p']) := ⟨by decide, by decide⟩
  refine join_refuses Q ?_ (f := ⟨⟨[], (2, 1, 1), 0, 0, 0, 1, 1, 1, 1⟩, dumpBody 1 1 1 [(⟨false, sDensity⟩, fun _ _ _ => [1, 2, 3, 4])]⟩)
    (f' := ⟨⟨[], (2, 1, 1), 1, 0, 0, 1, 1, 1, 1⟩, dumpBody 1 1 1 [(⟨false, str ['p']⟩, fun _ _ _ => [1, 2, 3, 4])]⟩) (by simp) (by simp)
    w1 w2 rfl rfl ?_
  · intro f hf
    rcases List.mem_cons.1 hf with rfl | hf
    · exact ⟨1, 1, 1, ⟨false, sDensity⟩, _, [], w1, rfl⟩
    · rw [List.mem_singleton] at hf
      subst hf
      exact ⟨1, 1, 1, ⟨false, str ['p']⟩, _, [], w2, rfl⟩
  · intro h
    have := congrArg Var.name h
    exact absurd this (by decide)

end Athena.Join
