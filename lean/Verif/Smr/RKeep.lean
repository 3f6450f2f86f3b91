import Verif.Smr.RProps

/-!
# The values injected into covered zones are not changed afterwards (C27, any width of the overlap)
-/

namespace Athena.Smr

variable {R : Type*} [Field R] {nf : Nat}

open Child (normal)

/-- The piece of program does not change the variable `y`, whatever the message is. -/
def Keeps (y : Z3 × Var nf) (P : Parent.Prog R nf) : Prop := ∀ s w r, P (s, w) = some r → r.1.U y = s.U y

theorem keeps_pops {y : Z3 × Var nf} {l : List (R → PState R nf → PState R nf)} (h : ∀ f ∈ l, ∀ x s, (f x s).U y = s.U y) :
    Keeps y (pops l) := by
  induction l with
  | nil => intro s w r e; simp [pops] at e; subst e; rfl
  | cons f l ih =>
    intro s w r e
    cases w with
    | nil => simp [pops] at e
    | cons x xs =>
      rw [ih (fun f hf => h f (List.mem_cons_of_mem _ hf)) _ _ _ e, h f List.mem_cons_self]

theorem keeps_seqs {y : Z3 × Var nf} {l : List (Parent.Prog R nf)} (h : ∀ P ∈ l, Keeps y P) : Keeps y (seqs l) := by
  induction l with
  | nil => intro s w r e; simp [seqs] at e; subst e; rfl
  | cons f l ih =>
    intro s w r e
    simp only [seqs] at e
    cases hf : f (s, w) with
    | none => rw [hf] at e; simp at e
    | some q =>
      rw [hf, Option.bind_some] at e
      rw [ih (fun f hf => h f (List.mem_cons_of_mem _ hf)) _ _ _ e, h f List.mem_cons_self _ _ _ hf]

theorem keeps_pur {y : Z3 × Var nf} {f : PState R nf → PState R nf} (h : ∀ s, (f s).U y = s.U y) : Keeps y (pur f) := by
  intro s w r e; simp [pur] at e; subst e; exact h s

theorem keeps_skip {y : Z3 × Var nf} : Keeps y (fun s : PState R nf × List R => some s) := by
  intro s w r e; simp at e; subst e; rfl

theorem keeps_none {y : Z3 × Var nf} : Keeps y (fun _ : PState R nf × List R => none) := by
  intro s w r e; simp at e

theorem keeps_ite {y : Z3 × Var nf} {c : Prop} [Decidable c] {P Q : Parent.Prog R nf} (h1 : c → Keeps y P) (h2 : Keeps y Q) :
    Keeps y (if c then P else Q) := by
  by_cases h : c
  · rw [if_pos h]; exact h1 h
  · rw [if_neg h]; exact h2

theorem keep_foldl {α : Type*} {y : Z3 × Var nf} {f : PState R nf → α → PState R nf} (h : ∀ s x, (f s x).U y = s.U y) (l : List α)
    (s : PState R nf) : (l.foldl f s).U y = s.U y := by
  induction l generalizing s with
  | nil => rfl
  | cons a l ih => rw [List.foldl_cons, ih, h]

theorem keeps_each {α : Type*} {y : Z3 × Var nf} {f : α → PState R nf → PState R nf} (h : ∀ x s, (f x s).U y = s.U y) (l : List α) :
    Keeps y (Parent.each l f) := keeps_pur fun s => keep_foldl (fun s x => h x s) l s

variable {z : Z3} {n : Fin nf}

theorem keep_addB (m : Fin 3) (x : Z3) (v : R) (s : PState R nf) (y) : (Parent.addB m x v s).U y = s.U y := rfl
theorem keep_setB (m : Fin 3) (x : Z3) (v : R) (s : PState R nf) (y) : (s.setB m x v).U y = s.U y := rfl
theorem keep_centre (m : Fin 3) (x : Z3) (s : PState R nf) : (Parent.centre m x s).U (z, .f n) = s.U (z, .f n) := by
  simp [Parent.centre, PState.setU, upd]
theorem keep_face (m : Fin 3) (x : Z3) (w : R) (s : PState R nf) (y) : (Parent.face m x w s).U y = s.U y := rfl
theorem keep_faceOrSkip (p : Parent R nf) (d : Fin 6) (m : Fin 3) (x : Z3) (w : R) (s : PState R nf) (y) :
    (p.faceOrSkip d m x w s).U y = s.U y := by
  unfold Parent.faceOrSkip; split_ifs <;> rfl
theorem keep_emfPop (e : Fin 3) (ij : ℤ × ℤ) (E c : R) (use : Bool) (m : Fin 3) (x : Z3) (w : R) (s : PState R nf) (y) :
    (Parent.emfPop e ij E c use m x w s).U y = s.U y := by
  unfold Parent.emfPop; dsimp only; split_ifs <;> rfl

variable (p : Parent R nf)

theorem keep_rowB1 (k j : ℤ) (y : Z3 × Var nf) : ∀ f ∈ p.rowB1 k j, ∀ x s, (f x s).U y = s.U y := by
  intro f hf x s
  simp only [Parent.rowB1, List.mem_flatMap, List.mem_append, List.mem_singleton] at hf
  obtain ⟨i, _, (hf | hf) | hf⟩ := hf
  · split_ifs at hf <;> simp at hf; subst hf; exact keep_faceOrSkip ..
  · subst hf; rfl
  · split_ifs at hf <;> simp at hf; subst hf; exact keep_faceOrSkip ..

theorem keep_planeB2 (k : ℤ) (y : Z3 × Var nf) : ∀ f ∈ p.planeB2 k, ∀ x s, (f x s).U y = s.U y := by
  intro f hf x s
  simp only [Parent.planeB2, List.mem_append, List.mem_map] at hf
  rcases hf with (hf | ⟨a, _, rfl⟩) | hf
  · split_ifs at hf <;> simp at hf; obtain ⟨a, _, rfl⟩ := hf; exact keep_faceOrSkip ..
  · rfl
  · split_ifs at hf <;> simp at hf; obtain ⟨a, _, rfl⟩ := hf; exact keep_faceOrSkip ..

theorem keep_volB3 (y : Z3 × Var nf) : ∀ f ∈ p.volB3, ∀ x s, (f x s).U y = s.U y := by
  intro f hf x s
  simp only [Parent.volB3, List.mem_append, List.mem_map] at hf
  rcases hf with (hf | ⟨a, _, rfl⟩) | hf
  · split_ifs at hf <;> simp at hf; obtain ⟨a, _, _, rfl⟩ := hf; exact keep_faceOrSkip ..
  · rfl
  · split_ifs at hf <;> simp at hf; obtain ⟨a, _, _, rfl⟩ := hf; exact keep_faceOrSkip ..

theorem keeps_injectB : Keeps (z, .f n) p.injectB := by
  unfold Parent.injectB
  refine keeps_ite (fun _ => keeps_pur fun s => keep_foldl (by intros; rfl) _ _) (keeps_ite (fun _ => keeps_seqs ?_) (keeps_seqs ?_))
  · intro P hP
    simp only [List.mem_cons, List.not_mem_nil, or_false] at hP
    rcases hP with rfl | rfl | rfl
    · apply keeps_pops
      intro f hf
      obtain ⟨j, _, hf⟩ := List.mem_flatMap.1 hf
      exact keep_rowB1 p _ _ _ f hf
    · exact keeps_pops (keep_planeB2 p _ _)
    · refine keeps_pur fun s => keep_foldl (fun s x => ?_) _ _
      rw [keep_setB, keep_centre, keep_centre]
  · intro P hP
    simp only [List.mem_cons, List.not_mem_nil, or_false] at hP
    rcases hP with rfl | rfl | rfl | rfl
    · apply keeps_pops
      intro f hf
      obtain ⟨j, _, hf⟩ := List.mem_flatMap.1 hf
      exact keep_rowB1 p _ _ _ f hf
    · apply keeps_pops
      split_ifs
      · intro f hf
        obtain ⟨j, _, hf⟩ := List.mem_flatMap.1 hf
        exact keep_planeB2 p _ _ f hf
      · intro f hf; simp at hf
    · exact keeps_pops (keep_volB3 p _)
    · refine keeps_pur fun s => keep_foldl (fun s x => ?_) _ _
      rw [keep_centre, keep_centre, keep_centre]

theorem keeps_fluxCorr (hz : z ∈ zonesF p.box) (v : Var nf) (d : Fin 6) : Keeps (z, v) (p.fluxCorr d) := by
  unfold Parent.fluxCorr
  split
  · exact keeps_skip
  · apply keeps_pops
    intro f hf x s
    obtain ⟨a, _, rfl⟩ := List.mem_map.1 hf
    simp only [PState.setU, upd]
    rw [if_neg]
    intro e
    have := outside_not_mem p d a.1
    rw [← (Prod.mk.inj e).1] at this
    exact this hz

theorem keeps_emfPops (y : Z3 × Var nf) {α : Type*} (l : List α) (F : α → R → PState R nf → PState R nf)
    (hF : ∀ a x s, (F a x s).U y = s.U y) : Keeps y (pops (l.map F)) := by
  apply keeps_pops
  intro f hf x s
  obtain ⟨a, _, rfl⟩ := List.mem_map.1 hf
  exact hF a x s

theorem keeps_emfRows (y : Z3 × Var nf) {α β : Type*} (l : List α) (m : List β) (F : α → β → R → PState R nf → PState R nf)
    (G : α → R → PState R nf → PState R nf) (hF : ∀ a b x s, (F a b x s).U y = s.U y) (hG : ∀ a x s, (G a x s).U y = s.U y) :
    Keeps y (pops (l.flatMap fun a => m.map (F a) ++ [G a])) := by
  apply keeps_pops
  intro f hf x s
  simp only [List.mem_flatMap, List.mem_append, List.mem_map, List.mem_singleton] at hf
  obtain ⟨a, _, ⟨b, _, rfl⟩ | rfl⟩ := hf
  · exact hF a b x s
  · exact hG a x s

theorem keeps_emfCorr1 (d : Fin 6) : Keeps (z, .f n) (p.emfCorr1 d) := by
  unfold Parent.emfCorr1
  split
  · exact keeps_skip
  · dsimp only
    refine keeps_seqs fun P hP => ?_
    simp only [List.mem_cons, List.not_mem_nil, or_false] at hP
    rcases hP with rfl | rfl | rfl | rfl | rfl
    · exact keeps_emfRows _ _ _ _ _ (fun _ _ _ _ => keep_emfPop ..) (fun _ _ _ => keep_emfPop ..)
    · exact keeps_each (by intros; rfl) _
    · exact keeps_ite (fun _ => keeps_each (by intros; rfl) _) keeps_skip
    · refine keeps_ite (fun _ => ?_) keeps_skip
      split
      · exact keeps_none
      · refine keeps_seqs fun P hP => ?_
        simp only [List.mem_cons, List.not_mem_nil, or_false] at hP
        rcases hP with rfl | rfl | rfl | rfl | rfl
        · exact keeps_emfPops _ _ _ (fun _ _ _ => keep_emfPop ..)
        · exact keeps_emfPops _ _ _ (fun _ _ _ => keep_emfPop ..)
        · exact keeps_each (by intros; rfl) _
        · exact keeps_ite (fun _ => keeps_each (by intros; rfl) _) keeps_skip
        · exact keeps_each (fun _ _ => keep_centre ..) _
    · refine keeps_each (fun k s => ?_) _
      rw [keep_foldl (fun _ _ => keep_centre ..), keep_foldl (fun _ _ => by rw [keep_centre, keep_centre])]

theorem keeps_emfCorr2 (d : Fin 6) : Keeps (z, .f n) (p.emfCorr2 d) := by
  unfold Parent.emfCorr2
  split
  · exact keeps_skip
  · dsimp only
    refine keeps_seqs fun P hP => ?_
    simp only [List.mem_cons, List.not_mem_nil, or_false] at hP
    rcases hP with rfl | rfl | rfl | rfl | rfl
    · exact keeps_emfRows _ _ _ _ _ (fun _ _ _ _ => keep_emfPop ..) (fun _ _ _ => keep_emfPop ..)
    · exact keeps_each (by intros; rfl) _
    · exact keeps_ite (fun _ => keeps_each (by intros; rfl) _) keeps_skip
    · refine keeps_ite (fun _ => ?_) keeps_skip
      split
      · exact keeps_none
      · refine keeps_seqs fun P hP => ?_
        simp only [List.mem_cons, List.not_mem_nil, or_false] at hP
        rcases hP with rfl | rfl | rfl | rfl | rfl
        · exact keeps_emfPops _ _ _ (fun _ _ _ => keep_emfPop ..)
        · exact keeps_emfPops _ _ _ (fun _ _ _ => keep_emfPop ..)
        · exact keeps_each (by intros; rfl) _
        · exact keeps_ite (fun _ => keeps_each (by intros; rfl) _) keeps_skip
        · exact keeps_each (fun _ _ => keep_centre ..) _
    · refine keeps_each (fun k s => ?_) _
      rw [keep_foldl (fun _ _ => by rw [keep_centre, keep_centre]), keep_foldl (fun _ _ => keep_centre ..)]

theorem keeps_emfCorr3 (d : Fin 6) : Keeps (z, .f n) (p.emfCorr3 d) := by
  unfold Parent.emfCorr3
  split
  · exact keeps_skip
  · split
    · exact keeps_none
    · dsimp only
      refine keeps_seqs fun P hP => ?_
      simp only [List.mem_cons, List.not_mem_nil, or_false] at hP
      rcases hP with rfl | rfl | rfl | rfl | rfl | rfl | rfl | rfl
      · exact keeps_emfPops _ _ _ (fun _ _ _ => keep_emfPop ..)
      · exact keeps_emfPops _ _ _ (fun _ _ _ => keep_emfPop ..)
      · exact keeps_emfRows _ _ _ _ _ (fun _ _ _ _ => keep_emfPop ..) (fun _ _ _ => keep_emfPop ..)
      · exact keeps_each (by intros; rfl) _
      · refine keeps_ite (fun _ => keeps_seqs fun P hP => ?_) keeps_skip
        simp only [List.mem_cons, List.not_mem_nil, or_false] at hP
        rcases hP with rfl | rfl
        · exact keeps_each (by intros; rfl) _
        · exact keeps_each (by intros; rfl) _
      · exact keeps_each (fun _ _ => keep_centre ..) _
      · exact keeps_each (fun _ _ => keep_centre ..) _
      · exact keeps_each (fun _ _ => by rw [keep_centre, keep_centre]) _

theorem keeps_emfCorr : Keeps (z, .f n) p.emfCorr := by
  unfold Parent.emfCorr
  refine keeps_ite (fun _ => keeps_seqs fun P hP => ?_) keeps_skip
  simp only [List.mem_cons, List.not_mem_nil, or_false] at hP
  rcases hP with rfl | rfl | rfl | rfl | rfl | rfl
  · exact keeps_emfCorr1 p _
  · exact keeps_emfCorr1 p _
  · exact keeps_emfCorr2 p _
  · exact keeps_emfCorr2 p _
  · exact keeps_emfCorr3 p _
  · exact keeps_emfCorr3 p _

/-- The message begins with the averages. -/
theorem send_prefix {c : Child R nf} {p : Parent R nf} (h : Match c p) (he : p.mhd = true → EMatch c p) :
    ∃ rest, c.send = some ((p.zones ×ˢ p.vs).map (consW c p) ++ rest) := by
  cases hm : p.mhd with
  | false =>
    refine ⟨flxWs c p Child.dims, ?_⟩
    unfold Child.send
    rw [sendCons_eq h, Option.bind_some, h.mhd, hm]
    simp only [Bool.false_eq_true, if_false]
    rw [nCons_eq h, show ((p.zones ×ˢ p.vs).length : ℤ) = (((p.zones ×ˢ p.vs).map (consW c p)).length : ℤ) by simp,
      sendFlx_eq h, Option.bind_some]
  | true =>
    obtain ⟨we, hwe, _⟩ := emfCorr_eq h (he hm)
    refine ⟨fldWs c p ++ flxWs c p Child.dims ++ we, ?_⟩
    unfold Child.send
    rw [sendCons_eq h, Option.bind_some, h.mhd, hm]
    simp only [if_true]
    rw [sendFld_eq h]
    rw [nCons_eq h, nFld_eq h, show ((p.zones ×ˢ p.vs).length : ℤ) + ((fldWs c p).length : ℤ) =
      (((p.zones ×ˢ p.vs).map (consW c p) ++ fldWs c p).length : ℤ) by simp,
      sendFlx_eq h, Option.bind_some, hwe, Option.map_some]
    simp only [List.append_assoc]

/-- **C27.** Every covered coarse zone holds the average of the fine zones in it, whatever the width of the overlap
(also where the message is not read to its end). -/
theorem restrict_average_any {c : Child R nf} {p : Parent R nf} (h : Match c p) (he : p.mhd = true → EMatch c p)
    {s s' : PState R nf} {w rest : List R} (hw : c.send = some w) (hu : p.unpack (s, w) = some (s', rest))
    {n : Fin nf} (hn : Var.f n ∈ p.vs) {z : Z3} (hz : z ∈ zonesF p.box) :
    s'.U (z, .f n) = ((covered c p z).map fun y => c.g.U (y, .f n)).sum / 2^p.nDim := by
  obtain ⟨r, hr⟩ := send_prefix h he
  rw [hr] at hw
  obtain rfl : _ = w := by simpa using hw
  have hk : Keeps (z, .f n) (seqs [(if p.mhd then p.injectB else fun s => some s), seqs (Child.dims.map p.fluxCorr),
      (if p.mhd then p.emfCorr else fun s => some s)]) := by
    refine keeps_seqs fun P hP => ?_
    simp only [List.mem_cons, List.not_mem_nil, or_false] at hP
    rcases hP with rfl | rfl | rfl
    · exact keeps_ite (fun _ => keeps_injectB p) keeps_skip
    · refine keeps_seqs fun P hP => ?_
      obtain ⟨d, _, rfl⟩ := List.mem_map.1 hP
      exact keeps_fluxCorr p hz _ d
    · exact keeps_ite (fun _ => keeps_emfCorr p) keeps_skip
  unfold Parent.unpack at hu
  rw [seqs, injectU_eq, Option.bind_some] at hu
  rw [hk _ _ _ hu]
  simp only
  rw [if_pos (List.mem_product.2 ⟨mem_zones.2 hz, hn⟩), consW, avg, length_covered c p h.dim1 h.dim3]
  simp

/-- **C27.** The integral of every conserved variable over the region is the same on parent and child, whatever the
width of the overlap. -/
theorem restrict_integral_any [CharZero R] {c : Child R nf} {p : Parent R nf} (h : Match c p) (he : p.mhd = true → EMatch c p)
    {s s' : PState R nf} {w rest : List R} (hw : c.send = some w) (hu : p.unpack (s, w) = some (s', rest))
    {n : Fin nf} (hn : Var.f n ∈ p.vs) (V : R) :
    (∑ z ∈ zonesF p.box, s'.U (z, .f n)) * V = (∑ y ∈ zonesF c.box, c.g.U (y, .f n)) * (V / 2^p.nDim) := by
  rw [group3 h, Finset.sum_congr rfl (fun z hz => restrict_average_any h he hw hu hn hz), ← Finset.sum_div]
  ring

end Athena.Smr
