import Verif.Bvals.Lemmas
import Mathlib.Tactic.Positivity
import Mathlib.Tactic.LinearCombination

/-! What the boundary functions and the exchange of messages do, one direction and side at a time. -/

namespace Athena.Bvals

/-- Sizes the model of one Grid allows: at least one ghost zone; in every direction either a single zone or at
least two and not fewer than the ghost zones; 1D, 2D in (x1,x2), or 3D (src/init_mesh.c:190-197). -/
structure Dims (c : Cfg) (nx : Fin 3 → Nat) : Prop where
  ghosts : 1 ≤ c.ng
  zones : ∀ t, nx t = 1 ∨ (2 ≤ nx t ∧ c.ng ≤ nx t)
  nest : ∀ t d, t < d → 1 < nx d → 1 < nx t

/-- Depth of the zone with index `j` behind the boundary: 1 is the first ghost zone. -/
def depth (sd : Side) (s e j : Int) : Int := match sd with | .inner => s - j | .outer => j - e

/-- Depth of a face behind the boundary: 0 is the boundary face. -/
def fdepth (sd : Side) (s e j : Int) : Int := match sd with | .inner => s - j | .outer => j - e - 1

theorem lo_pos {c : Cfg} {nx : Fin 3 → Nat} {d : Fin 3} (h : 1 < nx d) : lo c nx d = c.ng := if_pos h
theorem hi_pos {c : Cfg} {nx : Fin 3 → Nat} {d : Fin 3} (h : 1 < nx d) : hi c nx d = nx d + c.ng - 1 := if_pos h
theorem size_pos {c : Cfg} {nx : Fin 3 → Nat} {d : Fin 3} (h : 1 < nx d) : size c nx d = nx d + 2 * c.ng := if_pos h
theorem lo_one {c : Cfg} {nx : Fin 3 → Nat} {d : Fin 3} (h : ¬ 1 < nx d) : lo c nx d = 0 := if_neg h
theorem hi_one {c : Cfg} {nx : Fin 3 → Nat} {d : Fin 3} (h : ¬ 1 < nx d) : hi c nx d = 0 := if_neg h
theorem size_one {c : Cfg} {nx : Fin 3 → Nat} {d : Fin 3} (h : ¬ 1 < nx d) : size c nx d = 1 := if_neg h

theorem trU_in {c : Cfg} {nx : Fin 3 → Nat} {d : Fin 3} (h : Dims c nx) (hd : 1 < nx d) (t : Fin 3) (_ht : t ≠ d) :
    0 ≤ (trU c nx d t).1 ∧ (trU c nx d t).2 < size c nx t := by
  have hn := h.ghosts
  have hx := h.zones t
  unfold trU
  by_cases e : t < d
  · have := h.nest t d e hd
    rw [if_pos e, lo_pos this, hi_pos this, size_pos this]; dsimp only; omega
  · rw [if_neg e]
    by_cases ht : 1 < nx t
    · rw [lo_pos ht, hi_pos ht, size_pos ht]; dsimp only; omega
    · rw [lo_one ht, hi_one ht, size_one ht]; dsimp only; omega

theorem trB_in {c : Cfg} {nx : Fin 3 → Nat} {d n : Fin 3} (h : Dims c nx) (hd : 1 < nx d) (t : Fin 3) (ht : t ≠ d) :
    0 ≤ (trB c nx d n t).1 ∧ (trB c nx d n t).2 < size c nx t := by
  have hn := h.ghosts
  have hx := h.zones t
  unfold trB
  by_cases e : t = n
  · subst e
    rw [if_pos rfl]
    by_cases e : t < d
    · have := h.nest t d e hd
      rw [if_pos e, lo_pos this, hi_pos this, size_pos this]; dsimp only; omega
    · rw [if_neg e]
      by_cases ht : 1 < nx t
      · rw [if_pos ht, lo_pos ht, hi_pos ht, size_pos ht]; dsimp only; omega
      · rw [if_neg ht, lo_one ht, hi_one ht, size_one ht]; dsimp only; omega
  · rw [if_neg e]; exact trU_in h hd t ht

theorem trBk_in {c : Cfg} {nx : Fin 3 → Nat} {k : Kind} {sd : Side} {d n : Fin 3} (h : Dims c nx) (hd : 1 < nx d)
    (t : Fin 3) (ht : t ≠ d) : 0 ≤ (trBk c nx k sd d n t).1 ∧ (trBk c nx k sd d n t).2 < size c nx t := by
  unfold trBk
  split_ifs with e
  · obtain ⟨_, _, rfl, rfl⟩ := e
    by_cases t0 : t = 0
    · subst t0
      have := h.nest 0 1 (by decide) hd
      have hn := h.ghosts
      rw [setD_self, lo_pos this, hi_pos this, size_pos this]; dsimp only; omega
    · rw [setD_ne _ _ _ _ t0]; exact trB_in h hd t ht
  · exact trB_in h hd t ht

theorem trBk_of_trB {c : Cfg} {nx : Fin 3 → Nat} {k : Kind} {sd : Side} {d n : Fin 3} {y : Idx}
    (h : TrIn (trB c nx d n) d y) : TrIn (trBk c nx k sd d n) d y := by
  intro t ht
  have hy := h t ht
  unfold trBk
  split_ifs with e
  · obtain ⟨_, _, rfl, rfl⟩ := e
    by_cases t0 : t = 0
    · subst t0
      have e1 : trB c nx 1 0 0 = (lo c nx 0 - (c.ng - 1), hi c nx 0 + c.ng) := rfl
      rw [e1] at hy
      rw [setD_self]; dsimp only at hy ⊢; omega
    · rw [setD_ne _ _ _ _ t0]; exact hy
  · exact hy

theorem srcI_in {c : Cfg} {nx : Fin 3 → Nat} {d : Fin 3} (h : Dims c nx) (hd : 1 < nx d) {k : Kind} (hk : k ≠ .later)
    (sd : Side) (i : Int) (h1 : 1 ≤ i) (h2 : i ≤ c.ng) :
    lo c nx d ≤ srcI k sd (lo c nx d) (hi c nx d) i ∧ srcI k sd (lo c nx d) (hi c nx d) i ≤ hi c nx d := by
  have hx := h.zones d
  rw [lo_pos hd, hi_pos hd]
  cases k <;> cases sd <;> simp only [srcI] <;> first | exact absurd rfl hk | omega

theorem srcF_in {c : Cfg} {nx : Fin 3 → Nat} {d : Fin 3} (h : Dims c nx) (hd : 1 < nx d) {k : Kind} (hk : k ≠ .later)
    (i : Int) (h1 : 1 ≤ i) (h2 : i ≤ c.ng - 1) :
    (lo c nx d ≤ srcF k .inner (lo c nx d) (hi c nx d) i ∧ srcF k .inner (lo c nx d) (hi c nx d) i ≤ hi c nx d ∧
      (k = .reflect → srcF k .inner (lo c nx d) (hi c nx d) i ≠ lo c nx d)) ∧
    (lo c nx d ≤ srcF k .outer (lo c nx d) (hi c nx d) (i + 1) ∧ srcF k .outer (lo c nx d) (hi c nx d) (i + 1) ≤ hi c nx d ∧
      (k = .reflect → lo c nx d < srcF k .outer (lo c nx d) (hi c nx d) (i + 1))) := by
  have hx := h.zones d
  rw [lo_pos hd, hi_pos hd]
  cases k <;> simp only [srcF] <;>
    first | exact absurd rfl hk | exact ⟨⟨by omega, by omega, fun e => by first | exact absurd e (by decide) | omega⟩, by omega, by omega, fun e => by first | exact absurd e (by decide) | omega⟩

/-- Copying behind the boundary at depths `1 … nghost`. -/
theorem copy_ghost {α : Type} {c : Cfg} {nx : Fin 3 → Nat} {d : Fin 3} (h : Dims c nx) (hd : 1 < nx d) {k : Kind}
    (hk : k ≠ .later) (sd : Side) (r : Rng) (hr : ∀ t, t ≠ d → 0 ≤ (r t).1 ∧ (r t).2 < size c nx t)
    (f : α → α) (u : Idx → α) :
    ∃ u', copy c nx (setD r d (1, (c.ng : Int))) (fun x => setD x d (dstI sd (lo c nx d) (hi c nx d) (x d)))
        (fun x => setD x d (srcI k sd (lo c nx d) (hi c nx d) (x d))) f u = .ok u' ∧
      ∀ y, TrIn r d y → u' y =
        if 1 ≤ depth sd (lo c nx d) (hi c nx d) (y d) ∧ depth sd (lo c nx d) (hi c nx d) (y d) ≤ c.ng then
          f (u (setD y d (srcI k sd (lo c nx d) (hi c nx d) (depth sd (lo c nx d) (hi c nx d) (y d)))))
        else u y := by
  have hx := h.zones d
  obtain ⟨u', e, hu⟩ := copy_dir c nx r d 1 c.ng (dstI sd (lo c nx d) (hi c nx d)) (depth sd (lo c nx d) (hi c nx d))
    (srcI k sd (lo c nx d) (hi c nx d)) f u
    (by intro j; cases sd <;> simp only [dstI, depth] <;> omega)
    (by intro j; cases sd <;> simp only [dstI, depth] <;> omega)
    (by
      intro i i' h1 h2 h3 h4
      have := srcI_in h hd hk sd i' h3 h4
      cases sd <;> simp only [dstI] <;> omega)
    hr
    (by
      intro i h1 h2
      have := srcI_in h hd hk sd i h1 h2
      rw [size_pos hd]
      rw [lo_pos hd, hi_pos hd] at *
      refine ⟨?_, by omega, by omega⟩
      cases sd <;> simp only [dstI] <;> omega)
  refine ⟨u', e, fun y hy => ?_⟩
  by_cases hc : 1 ≤ depth sd (lo c nx d) (hi c nx d) (y d) ∧ depth sd (lo c nx d) (hi c nx d) (y d) ≤ c.ng
  · rw [if_pos hc]; exact (hu y).1 ⟨hy, hc⟩
  · rw [if_neg hc]; exact (hu y).2 (fun hh => hc hh.2)

theorem bcCells_ok {V : Type} [Neg V] {c : Cfg} {nx : Fin 3 → Nat} {d : Fin 3} (h : Dims c nx) (hd : 1 < nx d) {k : Kind}
    (hk : k ≠ .later) (sd : Side) (u : Idx → Var → V) :
    ∃ u', bcCells c k sd d nx u = .ok u' ∧ ∀ y, TrIn (trU c nx d) d y → u' y =
        if 1 ≤ depth sd (lo c nx d) (hi c nx d) (y d) ∧ depth sd (lo c nx d) (hi c nx d) (y d) ≤ c.ng then
          flipU k d (u (setD y d (srcI k sd (lo c nx d) (hi c nx d) (depth sd (lo c nx d) (hi c nx d) (y d)))))
        else u y :=
  copy_ghost h hd hk sd _ (fun t ht => trU_in h hd t ht) _ _

theorem bcTrans_ok {V : Type} [Neg V] {c : Cfg} {nx : Fin 3 → Nat} {d : Fin 3} (h : Dims c nx) (hd : 1 < nx d) {k : Kind}
    (hk : k ≠ .later) (sd : Side) (n : Fin 3) (u : Idx → V) :
    ∃ u', bcTrans c k sd d n nx u = .ok u' ∧ ∀ y, TrIn (trB c nx d n) d y → u' y =
        if 1 ≤ depth sd (lo c nx d) (hi c nx d) (y d) ∧ depth sd (lo c nx d) (hi c nx d) (y d) ≤ c.ng then
          signT k (u (setD y d (srcI k sd (lo c nx d) (hi c nx d) (depth sd (lo c nx d) (hi c nx d) (y d)))))
        else u y := by
  obtain ⟨u', e, hu⟩ := copy_ghost h hd hk sd (trBk c nx k sd d n) (fun t ht => trBk_in h hd t ht) (signT k) u
  exact ⟨u', e, fun y hy => hu y (trBk_of_trB hy)⟩

/-- Setting the boundary face to zero. -/
theorem zero_face {V : Type} [Zero V] (c : Cfg) (nx : Fin 3 → Nat) (d : Fin 3) (r : Rng)
    (hr : ∀ t, t ≠ d → 0 ≤ (r t).1 ∧ (r t).2 < size c nx t) (z : Int) (hz : 0 ≤ z ∧ z < size c nx d) (b : Idx → V) :
    ∃ b', copy c nx (setD r d (1, 1)) (fun x => setD x d z) (fun x => setD x d z) (fun _ => 0) b = .ok b' ∧
      ∀ y, TrIn r d y → b' y = if y d = z then 0 else b y := by
  have hall : (box (setD r d (1, 1))).all (fun x => inB c nx (setD x d z) && inB c nx (setD x d z)) = true := by
    rw [List.all_eq_true]
    intro x hx
    obtain ⟨ht, _⟩ := mem_box_setD.1 hx
    rw [Bool.and_self, inB_iff]
    intro t
    by_cases e : t = d
    · subst e; rw [setD_self]; exact hz
    · rw [setD_ne _ _ _ _ e]; have h3 := ht t e; have h4 := hr t e; omega
  refine ⟨_, by unfold copy; rw [if_pos hall], ?_⟩
  have hput : ∀ (l : List Idx) (b : Idx → V), copyLoop l (fun x => setD x d z) (fun x => setD x d z) (fun _ => 0) b =
      putAll l (fun x => setD x d z) (fun _ => 0) b := fun l b => rfl
  rw [hput]
  intro y hy
  by_cases e : y d = z
  · rw [if_pos e]
    have hm : setD y d 1 ∈ box (setD r d (1, 1)) := by
      rw [mem_box_setD, trIn_setD, setD_self]; exact ⟨hy, by omega, by omega⟩
    have := putAll_at (fun x => setD x d z) (fun _ => (0 : V)) _ _ b (fun _ _ _ _ _ => rfl) hm
    rw [setD_setD, ← e, setD_eta] at this
    rw [← e]; exact this
  · rw [if_neg e]
    apply putAll_other
    intro x _ h
    apply e
    rw [← h, setD_self]

theorem bcNormal_ok {V : Type} [Neg V] [Zero V] {c : Cfg} {nx : Fin 3 → Nat} {d : Fin 3} (h : Dims c nx) (hd : 1 < nx d)
    {k : Kind} (hk : k ≠ .later) (sd : Side) (b : Idx → V) :
    ∃ b', bcNormal c k sd d nx b = .ok b' ∧ ∀ y, TrIn (trU c nx d) d y → b' y =
        if fdepth sd (lo c nx d) (hi c nx d) (y d) = 0 then (if k = .reflect then 0 else b y)
        else if 1 ≤ fdepth sd (lo c nx d) (hi c nx d) (y d) ∧ fdepth sd (lo c nx d) (hi c nx d) (y d) ≤ c.ng - 1 then
          signN k (b (setD y d (srcF k sd (lo c nx d) (hi c nx d) (depth sd (lo c nx d) (hi c nx d) (y d)))))
        else b y := by
  have hx := h.zones d
  have hr := fun t ht => trU_in h hd (t := t) ht
  have hng := h.ghosts
  cases sd with
  | inner =>
    -- first the boundary face
    have hz : ∃ b1, ((bif decide (k = .reflect) then copy c nx (setD (trU c nx d) d (1, 1)) (fun x => setD x d (lo c nx d)) (fun x => setD x d (lo c nx d))
          (fun _ => 0) b else .ok b) : Res (Idx → V)) = .ok b1 ∧
        ∀ y, TrIn (trU c nx d) d y → b1 y = if y d = lo c nx d ∧ k = .reflect then 0 else b y := by
      by_cases e : k = .reflect
      · obtain ⟨b1, e1, h1⟩ := zero_face c nx d (trU c nx d) hr (lo c nx d) (by rw [lo_pos hd, size_pos hd]; omega) b
        refine ⟨b1, by simp only [e, decide_true, cond_true]; exact e1, fun y hy => ?_⟩
        rw [h1 y hy]; simp [e]
      · exact ⟨b, by simp [e], fun y _ => by simp [e]⟩
    obtain ⟨b1, e1, hb1⟩ := hz
    obtain ⟨b', e2, hb'⟩ := copy_dir c nx (trU c nx d) d 1 (c.ng - 1) (dstI .inner (lo c nx d) (hi c nx d))
      (depth .inner (lo c nx d) (hi c nx d)) (srcF k .inner (lo c nx d) (hi c nx d)) (signN k) b1
      (by intro j; simp only [dstI, depth]; omega) (by intro j; simp only [dstI, depth]; omega)
      (by intro i i' h1 h2 h3 h4; have := (srcF_in h hd hk i' h3 h4).1; simp only [dstI]; omega) hr
      (by
        intro i h1 h2
        have := (srcF_in h hd hk i h1 h2).1
        rw [size_pos hd]; rw [lo_pos hd, hi_pos hd] at *
        simp only [dstI]; omega)
    refine ⟨b', ?_, fun y hy => ?_⟩
    · unfold bcNormal; dsimp only; rw [e1, Res.bind_ok]; exact e2
    · have ef : fdepth .inner (lo c nx d) (hi c nx d) (y d) = lo c nx d - y d := rfl
      have ed : depth .inner (lo c nx d) (hi c nx d) (y d) = lo c nx d - y d := rfl
      have hb' := hb' y
      rw [ed] at hb'
      rw [ef, ed]
      by_cases h0 : lo c nx d - y d = 0
      · rw [if_pos h0, hb'.2 (by omega), hb1 y hy]
        by_cases e : k = .reflect
        · rw [if_pos ⟨by omega, e⟩, if_pos e]
        · rw [if_neg (fun hh => e hh.2), if_neg e]
      · rw [if_neg h0]
        by_cases h1 : 1 ≤ lo c nx d - y d ∧ lo c nx d - y d ≤ c.ng - 1
        · rw [if_pos h1, hb'.1 ⟨hy, h1⟩, hb1 _ ((trIn_setD _).2 hy), setD_self, if_neg]
          intro hh
          exact (srcF_in h hd hk _ h1.1 h1.2).1.2.2 hh.2 hh.1
        · rw [if_neg h1, hb'.2 (fun hh => h1 hh.2), hb1 y hy, if_neg]
          intro hh; omega
  | outer =>
    have hz : ∃ b1, ((bif decide (k = .reflect) then copy c nx (setD (trU c nx d) d (1, 1)) (fun x => setD x d (hi c nx d + 1)) (fun x => setD x d (hi c nx d + 1))
          (fun _ => 0) b else .ok b) : Res (Idx → V)) = .ok b1 ∧
        ∀ y, TrIn (trU c nx d) d y → b1 y = if y d = hi c nx d + 1 ∧ k = .reflect then 0 else b y := by
      by_cases e : k = .reflect
      · obtain ⟨b1, e1, h1⟩ := zero_face c nx d (trU c nx d) hr (hi c nx d + 1) (by rw [hi_pos hd, size_pos hd]; omega) b
        refine ⟨b1, by simp only [e, decide_true, cond_true]; exact e1, fun y hy => ?_⟩
        rw [h1 y hy]; simp [e]
      · exact ⟨b, by simp [e], fun y _ => by simp [e]⟩
    obtain ⟨b1, e1, hb1⟩ := hz
    obtain ⟨b', e2, hb'⟩ := copy_dir c nx (trU c nx d) d 2 c.ng (dstI .outer (lo c nx d) (hi c nx d))
      (depth .outer (lo c nx d) (hi c nx d)) (srcF k .outer (lo c nx d) (hi c nx d)) (signN k) b1
      (by intro j; simp only [dstI, depth]; omega) (by intro j; simp only [dstI, depth]; omega)
      (by
        intro i i' h1 h2 h3 h4
        have := (srcF_in h hd hk (i' - 1) (by omega) (by omega)).2
        rw [show i' - 1 + 1 = i' by omega] at this
        simp only [dstI]; omega) hr
      (by
        intro i h1 h2
        have := (srcF_in h hd hk (i - 1) (by omega) (by omega)).2
        rw [show i - 1 + 1 = i by omega] at this
        rw [size_pos hd]; rw [lo_pos hd, hi_pos hd] at *
        simp only [dstI]; omega)
    refine ⟨b', ?_, fun y hy => ?_⟩
    · unfold bcNormal; dsimp only; rw [e1, Res.bind_ok]; exact e2
    · have ef : fdepth .outer (lo c nx d) (hi c nx d) (y d) = y d - hi c nx d - 1 := rfl
      have ed : depth .outer (lo c nx d) (hi c nx d) (y d) = y d - hi c nx d := rfl
      have hb' := hb' y
      rw [ed] at hb'
      rw [ef, ed]
      by_cases h0 : y d - hi c nx d - 1 = 0
      · rw [if_pos h0, hb'.2 (by omega), hb1 y hy]
        by_cases e : k = .reflect
        · rw [if_pos ⟨by omega, e⟩, if_pos e]
        · rw [if_neg (fun hh => e hh.2), if_neg e]
      · rw [if_neg h0]
        by_cases h1 : 1 ≤ y d - hi c nx d - 1 ∧ y d - hi c nx d - 1 ≤ c.ng - 1
        · rw [if_pos h1, hb'.1 ⟨hy, by omega, by omega⟩, hb1 _ ((trIn_setD _).2 hy), setD_self, if_neg]
          intro hh
          have := (srcF_in h hd hk (y d - hi c nx d - 1) (by omega) (by omega)).2
          rw [show y d - hi c nx d - 1 + 1 = y d - hi c nx d by omega] at this
          omega
        · rw [if_neg h1, hb'.2 (by omega), hb1 y hy, if_neg]
          intro hh; omega

end Athena.Bvals
