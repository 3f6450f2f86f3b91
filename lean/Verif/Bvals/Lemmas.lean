import Verif.Bvals.Model
import Mathlib.Tactic.Ring
import Mathlib.Tactic.Linarith
import Mathlib.Tactic.SplitIfs
import Mathlib.Tactic.FinCases

/-! Lemmas on the loops of the boundary value functions. -/

namespace Athena.Bvals

theorem mem_rng {a b x : Int} : x ∈ rng a b ↔ a ≤ x ∧ x ≤ b := by
  unfold rng
  simp only [List.mem_map, List.mem_range]
  constructor
  · rintro ⟨n, hn, rfl⟩; omega
  · intro h; exact ⟨(x - a).toNat, by omega, by omega⟩

theorem length_rng (a b : Int) : (rng a b).length = (b + 1 - a).toNat := by simp [rng]

theorem rng_shift (a b k : Int) : rng (a + k) (b + k) = (rng a b).map (· + k) := by
  unfold rng
  rw [List.map_map]
  have : (b + k + 1 - (a + k)).toNat = (b + 1 - a).toNat := by congr 1; ring
  rw [this]
  apply List.map_congr_left
  intro n _
  simp only [Function.comp]
  ring

theorem idx_eq (x : Idx) : mkIdx (x 0) (x 1) (x 2) = x := by
  funext t
  fin_cases t <;> rfl

theorem mem_box {r : Rng} {x : Idx} : x ∈ box r ↔ ∀ t, (r t).1 ≤ x t ∧ x t ≤ (r t).2 := by
  unfold box
  simp only [List.mem_flatMap, List.mem_map, mem_rng]
  constructor
  · rintro ⟨k, hk, j, hj, i, hi, rfl⟩ t
    fin_cases t
    · exact hi
    · exact hj
    · exact hk
  · intro h
    exact ⟨x 2, h 2, x 1, h 1, x 0, h 0, idx_eq x⟩

theorem sum_const {α : Type} (l : List α) (n : Nat) : (l.map (fun _ => n)).sum = l.length * n := by
  induction l with
  | nil => simp
  | cons a l ih => simp only [List.map_cons, List.sum_cons, List.length_cons, ih]; ring

theorem length_box (r : Rng) : (box r).length =
    ((r 2).2 + 1 - (r 2).1).toNat * (((r 1).2 + 1 - (r 1).1).toNat * ((r 0).2 + 1 - (r 0).1).toNat) := by
  unfold box
  simp only [List.length_flatMap, List.length_map, length_rng, sum_const]

/-- Shifting the range of one direction shifts the list. -/
theorem box_shift (r : Rng) (d : Fin 3) (a b k : Int) :
    box (setD r d (a + k, b + k)) = (box (setD r d (a, b))).map (fun x => setD x d (x d + k)) := by
  have h0 : ∀ i j k' l, setD (mkIdx i j k') 0 l = mkIdx l j k' := by
    intro i j k' l; funext t; fin_cases t <;> rfl
  have h1 : ∀ i j k' l, setD (mkIdx i j k') 1 l = mkIdx i l k' := by
    intro i j k' l; funext t; fin_cases t <;> rfl
  have h2 : ∀ i j k' l, setD (mkIdx i j k') 2 l = mkIdx i j l := by
    intro i j k' l; funext t; fin_cases t <;> rfl
  unfold box
  fin_cases d
  · simp only [Fin.zero_eta, Function.update_self, ne_eq, Fin.reduceEq, not_false_eq_true, Function.update_of_ne,
      List.map_flatMap, List.map_map, Function.comp_def, h0, rng_shift]
    rfl
  · simp only [Fin.mk_one, Function.update_self, ne_eq, Fin.reduceEq, not_false_eq_true, Function.update_of_ne,
      List.map_flatMap, List.map_map, List.flatMap_map, Function.comp_def, h1, rng_shift]
    rfl
  · simp only [Fin.reduceFinMk, Function.update_self, ne_eq, Fin.reduceEq, not_false_eq_true, Function.update_of_ne,
      List.map_flatMap, List.map_map, List.flatMap_map, Function.comp_def, h2, rng_shift]
    rfl

theorem inB_iff (c : Cfg) (nx : Fin 3 → Nat) (x : Idx) : inB c nx x = true ↔ ∀ t, 0 ≤ x t ∧ x t < size c nx t := by
  unfold inB
  simp only [Bool.and_eq_true, decide_eq_true_eq]
  constructor
  · rintro ⟨⟨h0, h1⟩, h2⟩ t
    fin_cases t
    · exact h0
    · exact h1
    · exact h2
  · intro h; exact ⟨⟨h 0, h 1⟩, h 2⟩

theorem put_self {α β : Type} [DecidableEq α] (a : α → β) (x : α) (v : β) : put a x v x = v := if_pos rfl
theorem put_of_ne {α β : Type} [DecidableEq α] {x y : α} (h : y ≠ x) (a : α → β) (v : β) : put a x v y = a y := if_neg h

/-- Storing values at given places. -/
def putAll {α : Type} (l : List Idx) (dst : Idx → Idx) (val : Idx → α) (a : Idx → α) : Idx → α :=
  l.foldl (fun a x => put a (dst x) (val x)) a

theorem putAll_other {α : Type} (dst : Idx → Idx) (val : Idx → α) (z : Idx) : ∀ (l : List Idx) (a : Idx → α),
    (∀ x ∈ l, dst x ≠ z) → putAll l dst val a z = a z := by
  intro l
  induction l with
  | nil => intro a _; rfl
  | cons x l ih =>
    intro a h
    show putAll l dst val (put a (dst x) (val x)) z = a z
    rw [ih _ (fun y hy => h y (by simp [hy]))]
    exact put_of_ne (fun e => h x (by simp) e.symm) _ _

theorem putAll_at' {α : Type} (dst : Idx → Idx) (val : Idx → α) (z : Idx) : ∀ (l : List Idx) (a : Idx → α),
    (∀ x ∈ l, dst x = dst z → val x = val z) → z ∈ l ∨ a (dst z) = val z → putAll l dst val a (dst z) = val z := by
  intro l
  induction l with
  | nil => intro a _ h; exact h.resolve_left (by simp)
  | cons x l ih =>
    intro a h hz
    show putAll l dst val (put a (dst x) (val x)) (dst z) = val z
    apply ih _ (fun y hy => h y (by simp [hy]))
    by_cases e : dst x = dst z
    · exact .inr (by rw [e, put_self]; exact h x (by simp) e)
    · rcases hz with hz | hz
      · rcases List.mem_cons.1 hz with rfl | hz
        · exact absurd rfl e
        · exact .inl hz
      · exact .inr (by rw [put_of_ne (fun h => e h.symm)]; exact hz)

theorem putAll_at {α : Type} (dst : Idx → Idx) (val : Idx → α) (z : Idx) (l : List Idx) (a : Idx → α)
    (h : ∀ x ∈ l, ∀ y ∈ l, dst x = dst y → val x = val y) (hz : z ∈ l) : putAll l dst val a (dst z) = val z :=
  putAll_at' dst val z l a (fun x hx e => h x hx z hz e) (.inl hz)

/-- If no place written is read, the loop stores the old values. -/
theorem copyLoop_eq {α : Type} (dst src : Idx → Idx) (f : α → α) (a0 : Idx → α) : ∀ (l m : List Idx) (a : Idx → α),
    (∀ x ∈ l, ∀ y ∈ m, dst x ≠ src y) → l ⊆ m → (∀ y ∈ m, a (src y) = a0 (src y)) →
    copyLoop l dst src f a = putAll l dst (fun x => f (a0 (src x))) a := by
  intro l
  induction l with
  | nil => intro m a _ _ _; rfl
  | cons x l ih =>
    intro m a h hs ha
    show copyLoop l dst src f (put a (dst x) (f (a (src x)))) =
      putAll l dst _ (put a (dst x) (f (a0 (src x))))
    rw [ha x (hs (by simp))]
    apply ih m _ (fun y hy z hz => h y (by simp [hy]) z hz) (fun y hy => hs (by simp [hy]))
    intro y hy
    rw [put_of_ne (fun e => h x (by simp) y hy e.symm)]
    exact ha y hy

/-- `y` is in the loop range except in direction `d`. -/
def TrIn (r : Rng) (d : Fin 3) (y : Idx) : Prop := ∀ t, t ≠ d → (r t).1 ≤ y t ∧ y t ≤ (r t).2

theorem setD_self {α : Type} (x : Fin 3 → α) (d : Fin 3) (a : α) : setD x d a d = a := Function.update_self _ _ _
theorem setD_ne {α : Type} (x : Fin 3 → α) (d t : Fin 3) (a : α) (h : t ≠ d) : setD x d a t = x t :=
  Function.update_of_ne h _ _
theorem setD_setD {α : Type} (x : Fin 3 → α) (d : Fin 3) (a b : α) : setD (setD x d a) d b = setD x d b :=
  Function.update_idem _ _ _
theorem setD_eta {α : Type} (x : Fin 3 → α) (d : Fin 3) : setD x d (x d) = x := Function.update_eq_self _ _

theorem trIn_setD {r : Rng} {d : Fin 3} {y : Idx} (j : Int) : TrIn r d (setD y d j) ↔ TrIn r d y := by
  unfold TrIn
  constructor
  · intro h t ht; have := h t ht; rwa [setD_ne _ _ _ _ ht] at this
  · intro h t ht; rw [setD_ne _ _ _ _ ht]; exact h t ht

theorem mem_box_setD {r : Rng} {d : Fin 3} {a b : Int} {y : Idx} :
    y ∈ box (setD r d (a, b)) ↔ TrIn r d y ∧ a ≤ y d ∧ y d ≤ b := by
  rw [mem_box]
  constructor
  · intro h
    refine ⟨fun t ht => ?_, ?_⟩
    · have := h t; rwa [setD_ne _ _ _ _ ht] at this
    · have := h d; rwa [setD_self] at this
  · rintro ⟨h1, h2⟩ t
    by_cases ht : t = d
    · subst ht; rw [setD_self]; exact h2
    · rw [setD_ne _ _ _ _ ht]; exact h1 t ht

/-- A copy loop in direction `d`: the destination is `δ i`, the source `σ i`, for `a ≤ i ≤ b`. -/
theorem copy_dir {α : Type} (c : Cfg) (nx : Fin 3 → Nat) (r : Rng) (d : Fin 3) (a b : Int) (δ ι σ : Int → Int)
    (f : α → α) (u : Idx → α) (h1 : ∀ j, δ (ι j) = j) (h2 : ∀ i, ι (δ i) = i)
    (hno : ∀ i i', a ≤ i → i ≤ b → a ≤ i' → i' ≤ b → δ i ≠ σ i')
    (hr : ∀ t, t ≠ d → 0 ≤ (r t).1 ∧ (r t).2 < size c nx t)
    (hd : ∀ i, a ≤ i → i ≤ b → (0 ≤ δ i ∧ δ i < size c nx d) ∧ (0 ≤ σ i ∧ σ i < size c nx d)) :
    ∃ u', copy c nx (setD r d (a, b)) (fun x => setD x d (δ (x d))) (fun x => setD x d (σ (x d))) f u = .ok u' ∧
      ∀ y, (TrIn r d y ∧ a ≤ ι (y d) ∧ ι (y d) ≤ b → u' y = f (u (setD y d (σ (ι (y d)))))) ∧
        (¬ (TrIn r d y ∧ a ≤ ι (y d) ∧ ι (y d) ≤ b) → u' y = u y) := by
  have hb : ∀ x ∈ box (setD r d (a, b)), inB c nx (setD x d (δ (x d))) = true ∧ inB c nx (setD x d (σ (x d))) = true := by
    intro x hx
    obtain ⟨ht, ha, hb⟩ := mem_box_setD.1 hx
    have := hd (x d) ha hb
    constructor <;> rw [inB_iff] <;> intro t <;> by_cases e : t = d
    · subst e; rw [setD_self]; exact this.1
    · rw [setD_ne _ _ _ _ e]; have h3 := ht t e; have h4 := hr t e; omega
    · subst e; rw [setD_self]; exact this.2
    · rw [setD_ne _ _ _ _ e]; have h3 := ht t e; have h4 := hr t e; omega
  have hall : (box (setD r d (a, b))).all (fun x => inB c nx (setD x d (δ (x d))) && inB c nx (setD x d (σ (x d)))) = true := by
    rw [List.all_eq_true]
    intro x hx
    have := hb x hx
    simp [this.1, this.2]
  refine ⟨_, by unfold copy; rw [if_pos hall], ?_⟩
  have hno' : ∀ x ∈ box (setD r d (a, b)), ∀ y ∈ box (setD r d (a, b)), setD x d (δ (x d)) ≠ setD y d (σ (y d)) := by
    intro x hx y hy e
    obtain ⟨_, ha, hb⟩ := mem_box_setD.1 hx
    obtain ⟨_, ha', hb'⟩ := mem_box_setD.1 hy
    have := congrFun e d
    rw [setD_self, setD_self] at this
    exact hno _ _ ha hb ha' hb' this
  rw [copyLoop_eq _ _ _ u _ _ _ hno' (fun _ h => h) (fun _ _ => rfl)]
  have hinj : ∀ x y : Idx, setD x d (δ (x d)) = setD y d (δ (y d)) → x = y := by
    intro x y e
    funext t
    by_cases ht : t = d
    · subst ht
      have := congrFun e t
      rw [setD_self, setD_self] at this
      have := congrArg ι this
      rwa [h2, h2] at this
    · have := congrFun e t
      rwa [setD_ne _ _ _ _ ht, setD_ne _ _ _ _ ht] at this
  intro y
  constructor
  · rintro ⟨ht, ha, hb⟩
    have hm : setD y d (ι (y d)) ∈ box (setD r d (a, b)) := by
      rw [mem_box_setD, trIn_setD, setD_self]; exact ⟨ht, ha, hb⟩
    have := putAll_at (fun x => setD x d (δ (x d))) (fun x => f (u (setD x d (σ (x d))))) _ _ u
      (fun x _ z _ e => by rw [hinj x z e]) hm
    simp only [setD_self, setD_setD, h1, setD_eta] at this
    exact this
  · intro hn
    apply putAll_other
    intro x hx e
    apply hn
    obtain ⟨ht, ha, hb⟩ := mem_box_setD.1 hx
    subst e
    rw [trIn_setD, setD_self, h2]
    exact ⟨ht, ha, hb⟩

/-! ### Reading messages -/

theorem readVars_ok {V : Type} (w : Var → V) (m : List V) : ∀ (vs : List Var) (u : Var → V),
    readVars vs u (vs.map w ++ m) = .ok (fun v => if v ∈ vs then w v else u v, m) := by
  intro vs
  induction vs with
  | nil => intro u; simp [readVars]
  | cons a vs ih =>
    intro u
    show readVars vs (put u a (w a)) (vs.map w ++ m) = _
    rw [ih]
    congr 2
    funext v
    by_cases h : v ∈ vs
    · simp [h]
    · by_cases e : v = a
      · subst e; simp [h, put]
      · simp [h, e, put]

theorem readCells_ok {V : Type} (c : Cfg) (nx : Fin 3 → Nat) (dst : Idx → Idx) (w : Idx → Var → V) (m : List V)
    (hinj : ∀ x y, dst x = dst y → x = y) :
    ∀ (l : List Idx) (u : Idx → Var → V), (∀ x ∈ l, inB c nx (dst x) = true) →
    ∃ u', readCells c nx (l.map dst) u (l.flatMap (fun x => (vars c).map (w x)) ++ m) = .ok (u', m) ∧
      (∀ x ∈ l, ∀ v ∈ vars c, u' (dst x) v = w x v) ∧ (∀ y, (∀ x ∈ l, dst x ≠ y) → u' y = u y) := by
  intro l
  induction l with
  | nil => intro u _; exact ⟨u, rfl, by simp, fun _ _ => rfl⟩
  | cons x l ih =>
    intro u hb
    obtain ⟨u', e, h1, h2⟩ := ih (put u (dst x) (fun v => if v ∈ vars c then w x v else u (dst x) v))
      (fun y hy => hb y (by simp [hy]))
    refine ⟨u', ?_, ?_, ?_⟩
    · show (if inB c nx (dst x) = true then _ else _) = _
      rw [if_pos (hb x (by simp)), List.flatMap_cons, List.append_assoc, readVars_ok, Res.bind_ok]
      exact e
    · intro y hy v hv
      by_cases hl : y ∈ l
      · exact h1 y hl v hv
      · have : y = x := by simpa [hl] using hy
        subst this
        rw [h2 _ (fun z hz e => hl (hinj z y e ▸ hz)), put_self, if_pos hv]
    · intro y hy
      rw [h2 y (fun z hz => hy z (by simp [hz])), put_of_ne (fun e => hy x (by simp) e.symm)]

theorem readFace_ok {V : Type} (c : Cfg) (nx : Fin 3 → Nat) (dst : Idx → Idx) (w : Idx → V) (m : List V)
    (hinj : ∀ x y, dst x = dst y → x = y) :
    ∀ (l : List Idx) (u : Idx → V), (∀ x ∈ l, inB c nx (dst x) = true) →
    ∃ u', readFace c nx (l.map dst) u (l.map w ++ m) = .ok (u', m) ∧
      (∀ x ∈ l, u' (dst x) = w x) ∧ (∀ y, (∀ x ∈ l, dst x ≠ y) → u' y = u y) := by
  intro l
  induction l with
  | nil => intro u _; exact ⟨u, rfl, by simp, fun _ _ => rfl⟩
  | cons x l ih =>
    intro u hb
    obtain ⟨u', e, h1, h2⟩ := ih (put u (dst x) (w x)) (fun y hy => hb y (by simp [hy]))
    refine ⟨u', ?_, ?_, ?_⟩
    · show (if inB c nx (dst x) = true then _ else _) = _
      rw [if_pos (hb x (by simp))]
      exact e
    · intro y hy
      by_cases hl : y ∈ l
      · exact h1 y hl
      · have : y = x := by simpa [hl] using hy
        subst this
        rw [h2 _ (fun z hz e => hl (hinj z y e ▸ hz)), put_self]
    · intro y hy
      rw [h2 y (fun z hz => hy z (by simp [hz])), put_of_ne (fun e => hy x (by simp) e.symm)]

end Athena.Bvals
