import Verif.Smr.RFld

/-!
# The EMF correction of `RestrictCorrect`: effect on the face fields
-/

namespace Athena.Smr

variable {R : Type*} [Field R] {nf : Nat}

/-! ## Statements that only touch the cell-centred field -/

/-- `f` changes at most cell-centred magnetic fields. -/
def UOnly (f : PState R nf → PState R nf) : Prop :=
  ∀ s, (f s).B = s.B ∧ (f s).e = s.e ∧ ∀ z n, (f s).U (z, .f n) = s.U (z, .f n)

theorem UOnly.id : UOnly (fun s : PState R nf => s) := fun _ => ⟨rfl, rfl, fun _ _ => rfl⟩

theorem UOnly.comp {f g : PState R nf → PState R nf} (hf : UOnly f) (hg : UOnly g) : UOnly (fun s => f (g s)) :=
  fun s => ⟨(hf _).1.trans (hg s).1, (hf _).2.1.trans (hg s).2.1, fun z n => ((hf _).2.2 z n).trans ((hg s).2.2 z n)⟩

theorem UOnly.foldl {α : Type*} (l : List α) {f : α → PState R nf → PState R nf} (hf : ∀ x, UOnly (f x)) :
    UOnly (fun s => l.foldl (fun s x => f x s) s) := by
  induction l with
  | nil => exact UOnly.id
  | cons a l ih => exact UOnly.comp ih (hf a)

theorem centre_UOnly (m : Fin 3) (z : Z3) : UOnly (Parent.centre (R := R) (nf := nf) m z) := by
  intro s
  refine ⟨rfl, rfl, fun z' n => ?_⟩
  simp [Parent.centre, PState.setU, upd]

/-! ## Additions to faces -/

theorem foldl_add_if {ι β : Type*} [DecidableEq ι] [DecidableEq β] (l : List β) (hl : l.Nodup) (g : β → ι) (r : ι → β)
    (hr : ∀ x, r (g x) = x) (f : β → R) (use : β → Bool) (a : ι → R) (z : ι) :
    l.foldl (fun a x => if use x then upd a (g x) (a (g x) + f x) else a) a z =
      a z + if r z ∈ l ∧ g (r z) = z ∧ use (r z) then f (r z) else 0 := by
  induction l generalizing a with
  | nil => simp
  | cons b l ih =>
    rw [List.foldl_cons, ih (List.nodup_cons.1 hl).2]
    have hb := (List.nodup_cons.1 hl).1
    by_cases hz : z = g b
    · subst hz
      simp only [hr, List.mem_cons, true_or, true_and]
      cases hu : use b <;> simp [upd, hb]
    · have : r z = b → g (r z) ≠ z := fun h h' => hz (by rw [← h', h])
      have e : (if use b = true then upd a (g b) (a (g b) + f b) else a) z = a z := by
        cases use b <;> simp [upd, hz]
      rw [e]
      congr 1
      by_cases hrb : r z = b
      · rw [if_neg (by tauto), if_neg (by tauto)]
      · simp [hrb]

theorem foldl_set_if {ι β α : Type*} [DecidableEq ι] (l : List β) (g : β → ι) (r : ι → β)
    (hr : ∀ x, r (g x) = x) (f : β → α) (a : ι → α) (x : β) (hx : x ∈ l) :
    l.foldl (fun a x => upd a (g x) (f x)) a (g x) = f x := by
  have hinj : ∀ y, g x = g y → x = y := fun y h => by rw [← hr x, h, hr]
  induction l generalizing a with
  | nil => simp at hx
  | cons b l ih =>
    rw [List.foldl_cons]
    by_cases hl : x ∈ l
    · exact ih _ hl
    · have hb : x = b := by simpa [hl] using hx
      have : ∀ (l : List β) (a : ι → α), x ∉ l → l.foldl (fun a x => upd a (g x) (f x)) a (g x) = a (g x) := by
        intro l
        induction l with
        | nil => simp
        | cons y l ih =>
          intro a hy
          rw [List.foldl_cons, ih _ (fun h => hy (List.mem_cons_of_mem _ h)), upd, if_neg]
          intro h
          exact hy (by rw [hinj y h]; exact List.mem_cons_self)
      rw [this l _ hl, hb, upd, if_pos rfl]

/-- `B` with something added to the faces normal to `m`. -/
def plusB (B : Fin 3 → Z3 → R) (m : Fin 3) (D : Z3 → R) : Fin 3 → Z3 → R :=
  fun n z => if n = m then B m z + D z else B n z

/-- Reading the EMFs of one kind. -/
theorem pops_emf {β : Type*} [DecidableEq β] (l : List β) (hl : l.Nodup) (e : Fin 3) (ij : β → ℤ × ℤ) (ri : ℤ × ℤ → β)
    (hri : ∀ x, ri (ij x) = x) (E : β → R) (cst : R) (use : β → Bool) (m : Fin 3) (g : β → Z3) (r : Z3 → β)
    (hr : ∀ x, r (g x) = x) (w : β → R) (s : PState R nf) (rest : List R) :
    ∃ s' : PState R nf, pops (l.map fun x => Parent.emfPop e (ij x) (E x) cst (use x) m (g x)) (s, l.map w ++ rest) =
        some (s', rest) ∧ s'.U = s.U ∧
      (s'.B = plusB s.B m fun z => if r z ∈ l ∧ g (r z) = z ∧ use (r z) then cst*(E (r z) - w (r z)) else 0) ∧
      (∀ x ∈ l, s'.e e (ij x) = w x) ∧ (∀ n, n ≠ e → s'.e n = s.e n) := by
  rw [pops_map]
  refine ⟨_, rfl, ?_, ?_, ?_, ?_⟩
  · clear hl
    induction l generalizing s with
    | nil => rfl
    | cons a l ih =>
      rw [List.foldl_cons, ih]
      unfold Parent.emfPop Parent.addB
      dsimp only
      split_ifs <;> rfl
  · have : ∀ (l : List β) (s : PState R nf),
        (l.foldl (fun s x => Parent.emfPop e (ij x) (E x) cst (use x) m (g x) (w x) s) s).B =
        fun n => if n = m then l.foldl (fun a x => if use x then upd a (g x) (a (g x) + cst*(E x - w x)) else a) (s.B m)
          else s.B n := by
      intro l
      induction l with
      | nil =>
        intro s; funext n
        simp only [List.foldl_nil]
        split_ifs with h
        · rw [h]
        · rfl
      | cons a l ih =>
        intro s
        rw [List.foldl_cons, ih]
        funext n
        unfold Parent.emfPop Parent.addB
        dsimp only
        by_cases hn : n = m
        · rw [if_pos hn, if_pos hn, List.foldl_cons]
          cases use a <;> simp [PState.setB, PState.setE]
        · rw [if_neg hn, if_neg hn]
          cases use a <;> simp [PState.setB, PState.setE, hn]
    rw [this]
    funext n z
    unfold plusB
    by_cases hn : n = m
    · rw [if_pos hn, if_pos hn, foldl_add_if l hl g r hr]
    · rw [if_neg hn, if_neg hn]
  · have : ∀ (l : List β) (s : PState R nf),
        (l.foldl (fun s x => Parent.emfPop e (ij x) (E x) cst (use x) m (g x) (w x) s) s).e e =
        l.foldl (fun a x => upd a (ij x) (w x)) (s.e e) := by
      intro l
      induction l with
      | nil => intro s; rfl
      | cons a l ih =>
        intro s
        rw [List.foldl_cons, ih, List.foldl_cons]
        unfold Parent.emfPop Parent.addB
        dsimp only
        congr 1
        cases use a <;> simp [PState.setB, PState.setE]
    intro x hx
    rw [this]
    exact foldl_set_if l ij ri hri w _ x hx
  · intro n hn
    clear hl
    induction l generalizing s with
    | nil => rfl
    | cons a l ih =>
      rw [List.foldl_cons, ih]
      unfold Parent.emfPop Parent.addB
      dsimp only
      cases use a <;> simp [PState.setB, PState.setE, hn]

/-- A loop adding to faces something that depends on the stored EMFs. -/
theorem each_add {β : Type*} [DecidableEq β] (l : List β) (hl : l.Nodup) (m : Fin 3) (g : β → Z3) (r : Z3 → β)
    (hr : ∀ x, r (g x) = x) (f : β → (Fin 3 → ℤ × ℤ → R) → R) (s : PState R nf) (rest : List R) :
    Parent.each l (fun x s => Parent.addB m (g x) (f x s.e) s) (s, rest) =
      some ({ s with B := plusB s.B m fun z => if r z ∈ l ∧ g (r z) = z then f (r z) s.e else 0 }, rest) := by
  unfold Parent.each pur
  congr 2
  dsimp only
  have : ∀ (l : List β) (s : PState R nf),
      l.foldl (fun s x => Parent.addB m (g x) (f x s.e) s) s =
      { s with B := fun n => if n = m then
          l.foldl (fun a x => if (fun _ : β => true) x then upd a (g x) (a (g x) + f x s.e) else a) (s.B m) else s.B n } := by
    intro l
    induction l with
    | nil =>
      intro s
      simp only [List.foldl_nil]
      have : s.B = fun n => if n = m then s.B m else s.B n := by
        funext n
        split_ifs with h
        · rw [h]
        · rfl
      rw [← this]
    | cons a l ih =>
      intro s
      rw [List.foldl_cons, ih, List.foldl_cons]
      unfold Parent.addB PState.setB
      dsimp only
      congr 1
      funext n
      by_cases hn : n = m
      · simp [hn]
      · simp [hn]
  rw [this]
  congr 1
  funext n z
  unfold plusB
  by_cases hn : n = m
  · rw [if_pos hn, if_pos hn, foldl_add_if l hl g r hr]
    simp
  · rw [if_neg hn, if_neg hn]

theorem each_U {α : Type*} (l : List α) (f : α → PState R nf → PState R nf) (hf : ∀ x, UOnly (f x)) (s : PState R nf)
    (rest : List R) :
    ∃ s', Parent.each l f (s, rest) = some (s', rest) ∧ s'.B = s.B ∧ s'.e = s.e ∧
      ∀ z n, s'.U (z, .f n) = s.U (z, .f n) := by
  refine ⟨_, rfl, ?_⟩
  exact UOnly.foldl l hf s

theorem seqs_cons {S : Type*} (f : S × List R → Option (S × List R)) (fs) (s t : S × List R) (h : f s = some t) :
    seqs (f :: fs) s = seqs fs t := by
  simp [seqs, h]

/-! ## What is sent -/

/-- EMF arrays by direction. -/
def Child.emf (c : Child R nf) (e : Fin 3) : Fin 6 → Option (ℤ → ℤ → R) :=
  if e = 0 then c.emf1 else if e = 1 then c.emf2 else c.emf3
/-- EMF arrays by direction. -/
def Parent.emf (p : Parent R nf) (e : Fin 3) : Fin 6 → Option (ℤ → ℤ → R) :=
  if e = 0 then p.emf1 else if e = 1 then p.emf2 else p.emf3

/-- Mean value of the fine EMFs on the coarse edge in direction `e` with (coarse) indices `x` on a boundary normal
to `m`: along the edge there are two fine edges (one if the direction is not refined).  The edge is along the
outer index of the array in the cases `(m,e)` = (x1,x3), (x2,x3), (x3,x2). -/
def eW (p : Parent R nf) (m e : Fin 3) (F : ℤ → ℤ → R) (x : ℤ × ℤ) : R :=
  let t := p.tb m
  if e = 2 ∨ (m = 2 ∧ e = 1) then
    avg (fun o => F (2*(x.1 - t.1.1) + o) (2*(x.2 - t.2.1))) (offs (if e = 2 then 3 ≤ p.nDim else true))
  else avg (fun o => F (2*(x.1 - t.1.1)) (2*(x.2 - t.2.1) + o)) (offs true)

/-- The EMF arrays are there on the same boundaries on both sides, and those needed together are there together
(`init_grid` allocates them together with the fluxes). -/
structure EMatch (c : Child R nf) (p : Parent R nf) : Prop where
  same : ∀ e d, (c.emf e d).isSome = (p.emf e d).isSome
  e2 : ∀ d, Child.normal d = 0 → p.nDim = 3 → (p.emf3 d).isSome → (p.emf2 d).isSome
  e1 : ∀ d, Child.normal d = 1 → p.nDim = 3 → (p.emf3 d).isSome → (p.emf1 d).isSome
  e2' : ∀ d, Child.normal d = 2 → (p.emf1 d).isSome → (p.emf2 d).isSome
  x2 : ∀ d, Child.normal d = 1 → (p.emf3 d).isSome → 2 ≤ p.nDim
  x1 : ∀ d, Child.normal d = 0 → (p.emf3 d).isSome → 2 ≤ p.nDim
  x3 : ∀ d, Child.normal d = 2 → (p.emf1 d).isSome → p.nDim = 3


theorem isSome_eq {α β : Type*} {a : Option α} {b : Option β} {y : β} (h : a.isSome = b.isSome) (hb : b = some y) :
    ∃ x, a = some x := by
  rw [hb] at h
  exact Option.isSome_iff_exists.1 h

/-- Difference between the EMF of the coarse Grid and the mean fine EMF on an edge. -/
def dE (p : Parent R nf) (m e : Fin 3) (E F : ℤ → ℤ → R) (x : ℤ × ℤ) : R :=
  E (x.1 - (p.tb m).1.1) (x.2 - (p.tb m).2.1) - eW p m e F x

theorem avg_one {α : Type*} (u : α → R) (a : α) : avg u [a] = u a := by simp [avg]

theorem avg_two {α : Type*} (u : α → R) (a b : α) : avg u [a, b] = 1/2*(u a + u b) := by
  simp [avg]; ring

theorem rng2_zero_zero : rng2 0 0 = [0] := rfl

theorem emfWords1 {c : Child R nf} {p : Parent R nf} (h : Match c p) (d : Fin 6) (hd : Child.normal d = 0)
    (h2 : 2 ≤ p.nDim) (G3 G2 : ℤ → ℤ → R) (h3 : c.emf3 d = some G3) (h4 : p.nDim = 3 → c.emf2 d = some G2) :
    c.emfWords d = some ((rng p.box.ks p.box.ke ×ˢ rng p.box.js (p.box.je + 1)).map (eW p 0 2 G3) ++
      (if p.nDim = 3 then (rng p.box.ks (p.box.ke + 1) ×ˢ rng p.box.js p.box.je).map (eW p 0 1 G2) else [])) := by
  have d3 := h.dim3
  have e2 := h.x2 h2
  unfold Child.emfWords
  dsimp only
  rw [if_pos hd, h3, h.dim]
  dsimp only
  have w3 : ∀ x : ℤ × ℤ, eW p 0 2 G3 x = avg (fun o => G3 (2*(x.1 - p.box.ks) + o) (2*(x.2 - p.box.js))) (offs (3 ≤ p.nDim)) := by
    intro x; simp [eW, Parent.tb]
  have w2 : ∀ x : ℤ × ℤ, eW p 0 1 G2 x = avg (fun o => G2 (2*(x.1 - p.box.ks)) (2*(x.2 - p.box.js) + o)) (offs true) := by
    intro x; simp [eW, Parent.tb]
  rcases (by omega : p.nDim = 2 ∨ p.nDim = 3) with hD | hD
  · have e3 := h.x3' (by omega)
    rw [if_pos (by omega), if_neg (by omega), List.append_nil, rng2_zero h.c3, rng2_zero_face e2.1 e2.2, map_product,
      List.map_map]
    congr 1
    apply List.map_congr_left
    rintro ⟨k, j⟩ _
    rw [w3, hD]
    simp [offs, avg_one]
  · have e3 := h.x3 (by omega)
    rw [if_neg (by omega), if_pos hD, h4 hD, Option.map_some, rng2_zero h.c3, rng2_zero h.c2, rng2_zero_face e2.1 e2.2,
      rng2_zero_face e3.1 e3.2, map_product, map_product, List.map_map, List.map_map]
    congr 2
    · apply List.map_congr_left
      rintro ⟨k, j⟩ _
      rw [w3, hD]
      simp [offs, avg_two]
    · apply List.map_congr_left
      rintro ⟨k, j⟩ _
      rw [w2]
      simp [offs, avg_two]

theorem emfWords2 {c : Child R nf} {p : Parent R nf} (h : Match c p) (d : Fin 6) (hd : Child.normal d = 1)
    (h2 : 2 ≤ p.nDim) (G3 G1 : ℤ → ℤ → R) (h3 : c.emf3 d = some G3) (h4 : p.nDim = 3 → c.emf1 d = some G1) :
    c.emfWords d = some ((rng p.box.ks p.box.ke ×ˢ rng p.box.is (p.box.ie + 1)).map (eW p 1 2 G3) ++
      (if p.nDim = 3 then (rng p.box.ks (p.box.ke + 1) ×ˢ rng p.box.is p.box.ie).map (eW p 1 0 G1) else [])) := by
  have d3 := h.dim3
  have e1 := h.x1
  unfold Child.emfWords
  dsimp only
  rw [if_neg (by rw [hd]; decide), if_pos hd, h3, h.dim]
  dsimp only
  have w3 : ∀ x : ℤ × ℤ, eW p 1 2 G3 x = avg (fun o => G3 (2*(x.1 - p.box.ks) + o) (2*(x.2 - p.box.is))) (offs (3 ≤ p.nDim)) := by
    intro x; simp [eW, Parent.tb]
  have w2 : ∀ x : ℤ × ℤ, eW p 1 0 G1 x = avg (fun o => G1 (2*(x.1 - p.box.ks)) (2*(x.2 - p.box.is) + o)) (offs true) := by
    intro x; simp [eW, Parent.tb]
  rcases (by omega : p.nDim = 2 ∨ p.nDim = 3) with hD | hD
  · have e3 := h.x3' (by omega)
    rw [if_pos (by omega), if_neg (by omega), List.append_nil, rng2_zero h.c3, rng2_zero_face e1.1 e1.2, map_product,
      List.map_map]
    congr 1
    apply List.map_congr_left
    rintro ⟨k, j⟩ _
    rw [w3, hD]
    simp [offs, avg_one]
  · have e3 := h.x3 (by omega)
    rw [if_neg (by omega), if_pos hD, h4 hD, Option.map_some, rng2_zero h.c3, rng2_zero h.c1, rng2_zero_face e1.1 e1.2,
      rng2_zero_face e3.1 e3.2, map_product, map_product, List.map_map, List.map_map]
    congr 2
    · apply List.map_congr_left
      rintro ⟨k, j⟩ _
      rw [w3, hD]
      simp [offs, avg_two]
    · apply List.map_congr_left
      rintro ⟨k, j⟩ _
      rw [w2]
      simp [offs, avg_two]

theorem emfWords3 {c : Child R nf} {p : Parent R nf} (h : Match c p) (d : Fin 6) (hd : Child.normal d = 2)
    (hD : p.nDim = 3) (G1 G2 : ℤ → ℤ → R) (h3 : c.emf1 d = some G1) (h4 : c.emf2 d = some G2) :
    c.emfWords d = some ((rng p.box.js (p.box.je + 1) ×ˢ rng p.box.is p.box.ie).map (eW p 2 0 G1) ++
      (rng p.box.js p.box.je ×ˢ rng p.box.is (p.box.ie + 1)).map (eW p 2 1 G2)) := by
  have e1 := h.x1
  have e2 := h.x2 (by omega)
  unfold Child.emfWords
  dsimp only
  rw [if_neg (by rw [hd]; decide), if_neg (by rw [hd]; decide), h3, h4]
  dsimp only
  have w1 : ∀ x : ℤ × ℤ, eW p 2 0 G1 x = avg (fun o => G1 (2*(x.1 - p.box.js)) (2*(x.2 - p.box.is) + o)) (offs true) := by
    intro x; simp [eW, Parent.tb]
  have w2 : ∀ x : ℤ × ℤ, eW p 2 1 G2 x = avg (fun o => G2 (2*(x.1 - p.box.js) + o) (2*(x.2 - p.box.is))) (offs true) := by
    intro x; simp [eW, Parent.tb]
  rw [Option.map_some, rng2_zero h.c2, rng2_zero h.c1, rng2_zero_face e1.1 e1.2, rng2_zero_face e2.1 e2.2,
    map_product, map_product, List.map_map, List.map_map]
  congr 2
  · apply List.map_congr_left
    rintro ⟨k, j⟩ _
    rw [w1]
    simp [offs, avg_two]
  · apply List.map_congr_left
    rintro ⟨k, j⟩ _
    rw [w2]
    simp [offs, avg_two]

end Athena.Smr
