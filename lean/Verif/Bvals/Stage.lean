import Verif.Bvals.Msg
import Verif.Bvals.Spec

/-! One direction of the exchange on one Grid, for zones and interface fields alike. -/

namespace Athena.Bvals

/-- The field is stored at the faces normal to `d`. -/
def Fld.Nrm (f : Fld) (d : Fin 3) : Prop := f = .face d

/-- Transverse ranges in direction `d`. -/
def trF (c : Cfg) (nx : Fin 3 → Nat) (d : Fin 3) : Fld → Rng
  | .cell _ => trU c nx d
  | .face n => if n = d then trU c nx d else trB c nx d n

/-- `j` is the index of a ghost zone (or face) which the code fills. -/
def Ghost (c : Cfg) (sd : Side) (d : Fin 3) (f : Fld) (s e j : Int) : Prop :=
  (f.Nrm d ∧ 1 ≤ fdepth sd s e j ∧ fdepth sd s e j ≤ c.ng - 1) ∨ (¬ f.Nrm d ∧ 1 ≤ depth sd s e j ∧ depth sd s e j ≤ c.ng)

instance (f : Fld) (d : Fin 3) : Decidable (f.Nrm d) := by
  unfold Fld.Nrm
  cases f with
  | cell v => exact isFalse (by intro h; cases h)
  | face n => exact if h : n = d then isTrue (by rw [h]) else isFalse (by intro e; cases e; exact h rfl)

instance (c : Cfg) (sd : Side) (d : Fin 3) (f : Fld) (s e j : Int) : Decidable (Ghost c sd d f s e j) := by
  unfold Ghost; infer_instance

/-- Where a ghost zone gets its values from. -/
inductive Src (V : Type) where
  | bc (k : Kind)
  | msg (h : Grid V)

/-- Source index of a boundary function. -/
def srcJ (k : Kind) (sd : Side) (d : Fin 3) (f : Fld) (s e j : Int) : Int :=
  if f.Nrm d then srcF k sd s e (depth sd s e j) else srcI k sd s e (depth sd s e j)

/-- Sign of a boundary function. -/
def sgn {V : Type} [Neg V] (k : Kind) (d : Fin 3) (f : Fld) (x : V) : V :=
  match f with
  | .cell v => if flips k d v then -x else x
  | .face n => if n = d then signN k x else signT k x

def Src.val {V : Type} [Neg V] (c : Cfg) (sd : Side) (d : Fin 3) (g : Grid V) (f : Fld) (y : Idx) : Src V → V
  | .bc k => sgn k d f (f.val g (setD y d (srcJ k sd d f (lo c g.nx d) (hi c g.nx d) (y d))))
  | .msg h => f.val h (setD y d (y d + shift sd (lo c g.nx d) (hi c g.nx d) (lo c h.nx d) (hi c h.nx d)))

/-- The boundary face is set to zero. -/
def Src.Zeroes {V : Type} : Src V → Prop
  | .bc k => k = .reflect
  | .msg _ => False

instance {V : Type} (s : Src V) : Decidable s.Zeroes := by cases s <;> unfold Src.Zeroes <;> infer_instance

/-- One side has been filled. -/
structure Filled {V : Type} [Neg V] [Zero V] (c : Cfg) (sd : Side) (d : Fin 3) (s : Src V) (g g' : Grid V) : Prop where
  nx : g'.nx = g.nx
  val : ∀ f : Fld, f.In c → ∀ y, TrIn (trF c g.nx d f) d y → f.val g' y =
    if f.Nrm d ∧ s.Zeroes ∧ fdepth sd (lo c g.nx d) (hi c g.nx d) (y d) = 0 then 0
    else if Ghost c sd d f (lo c g.nx d) (hi c g.nx d) (y d) then s.val c sd d g f y
    else f.val g y

theorem cell_not_nrm (v : Var) (d : Fin 3) : ¬ (Fld.cell v).Nrm d := by intro h; cases h
theorem face_nrm {n d : Fin 3} : (Fld.face n).Nrm d ↔ n = d := by
  unfold Fld.Nrm; constructor
  · intro h; cases h; rfl
  · intro h; rw [h]

theorem mapFaces_ok {V : Type} (f : Fin 3 → (Idx → V) → Res (Idx → V)) (b : Fin 3 → Idx → V)
    (P : Fin 3 → (Idx → V) → Prop) (h : ∀ n, ∃ b', f n (b n) = .ok b' ∧ P n b') :
    ∃ b', mapFaces f b = .ok b' ∧ ∀ n, P n (b' n) := by
  obtain ⟨b0, e0, p0⟩ := h 0
  obtain ⟨b1, e1, p1⟩ := h 1
  obtain ⟨b2, e2, p2⟩ := h 2
  refine ⟨fun n => if n = 0 then b0 else if n = 1 then b1 else b2, ?_, ?_⟩
  · unfold mapFaces; rw [e0, Res.bind_ok, e1, Res.bind_ok, e2]; rfl
  · intro n
    have : n = 0 ∨ n = 1 ∨ n = 2 := by fin_cases n <;> decide
    rcases this with rfl | rfl | rfl
    · exact p0
    · exact p1
    · exact p2

theorem fill_bc {V : Type} [Neg V] [Zero V] {c : Cfg} (g : Grid V) {d : Fin 3} (hg : Dims c g.nx) (hd : 1 < g.nx d)
    {k : Kind} (hk : k ≠ .later) (sd : Side) : ∃ g', bcFun c k sd d g = .ok g' ∧ Filled c sd d (.bc k) g g' := by
  obtain ⟨u', eu, hu⟩ := bcCells_ok hg hd hk sd g.U
  have hcell : ∀ v y, TrIn (trU c g.nx d) d y → u' y v =
      if Ghost c sd d (.cell v) (lo c g.nx d) (hi c g.nx d) (y d) then Src.val c sd d g (.cell v) y (.bc k) else g.U y v := by
    intro v y hy
    rw [hu y hy]
    have hn := cell_not_nrm v d
    by_cases e : 1 ≤ depth sd (lo c g.nx d) (hi c g.nx d) (y d) ∧ depth sd (lo c g.nx d) (hi c g.nx d) (y d) ≤ c.ng
    · have hG : Ghost c sd d (.cell v) (lo c g.nx d) (hi c g.nx d) (y d) := Or.inr ⟨hn, e⟩
      rw [if_pos e, if_pos hG]
      simp only [Src.val, sgn, srcJ, if_neg hn, flipU, Fld.val]
    · rw [if_neg e, if_neg]
      rintro (⟨h, _⟩ | ⟨_, h⟩)
      · exact hn h
      · exact e h
  have hfill : ∀ b' : Fin 3 → Idx → V, (c.mhd = true → ∀ n, ∀ y, TrIn (trF c g.nx d (.face n)) d y → b' n y =
        if (Fld.face n).Nrm d ∧ k = .reflect ∧ fdepth sd (lo c g.nx d) (hi c g.nx d) (y d) = 0 then 0
        else if Ghost c sd d (.face n) (lo c g.nx d) (hi c g.nx d) (y d) then Src.val c sd d g (.face n) y (.bc k)
        else g.Bi n y) → Filled c sd d (.bc k) g ⟨g.nx, u', b'⟩ := by
    intro b' hb
    refine ⟨rfl, ?_⟩
    intro f hf y hy
    cases f with
    | cell v =>
      rw [if_neg (fun h => cell_not_nrm v d h.1)]
      exact hcell v y hy
    | face n => exact hb hf n y hy
  unfold bcFun
  rw [if_neg hk, eu, Res.bind_ok]
  cases hm : c.mhd
  · exact ⟨_, rfl, hfill _ (by intro h; rw [hm] at h; cases h)⟩
  · have hfaces : ∃ b', mapFaces (fun n => bcFace c k sd d n g.nx) g.Bi = .ok b' ∧ ∀ n, ∀ y, TrIn (trF c g.nx d (.face n)) d y → b' n y =
        if (Fld.face n).Nrm d ∧ k = .reflect ∧ fdepth sd (lo c g.nx d) (hi c g.nx d) (y d) = 0 then 0
        else if Ghost c sd d (.face n) (lo c g.nx d) (hi c g.nx d) (y d) then Src.val c sd d g (.face n) y (.bc k)
        else g.Bi n y := by
      refine mapFaces_ok _ _ (fun n b' => ∀ y, TrIn (trF c g.nx d (.face n)) d y → b' y =
        if (Fld.face n).Nrm d ∧ k = .reflect ∧ fdepth sd (lo c g.nx d) (hi c g.nx d) (y d) = 0 then 0
        else if Ghost c sd d (.face n) (lo c g.nx d) (hi c g.nx d) (y d) then Src.val c sd d g (.face n) y (.bc k)
        else g.Bi n y) ?_
      intro n
      by_cases e : n = d
      · obtain ⟨b', eb, hb⟩ := bcNormal_ok hg hd hk sd (g.Bi n)
        refine ⟨b', by unfold bcFace; rw [if_pos e]; exact eb, ?_⟩
        have et : trF c g.nx d (.face n) = trU c g.nx d := if_pos e
        rw [et]
        intro y hy
        rw [hb y hy]
        have hn : (Fld.face n).Nrm d := face_nrm.2 e
        by_cases h0 : fdepth sd (lo c g.nx d) (hi c g.nx d) (y d) = 0
        · rw [if_pos h0]
          have hng : ¬ Ghost c sd d (.face n) (lo c g.nx d) (hi c g.nx d) (y d) := by
            rintro (⟨_, h, _⟩ | ⟨h, _⟩)
            · omega
            · exact h hn
          by_cases hr : k = .reflect
          · rw [if_pos hr, if_pos ⟨hn, hr, h0⟩]
          · rw [if_neg hr, if_neg (fun h => hr h.2.1), if_neg hng]
        · rw [if_neg h0, if_neg (c := (Fld.face n).Nrm d ∧ _ ∧ _) (fun h => h0 h.2.2)]
          by_cases h1 : 1 ≤ fdepth sd (lo c g.nx d) (hi c g.nx d) (y d) ∧ fdepth sd (lo c g.nx d) (hi c g.nx d) (y d) ≤ c.ng - 1
          · have hG : Ghost c sd d (.face n) (lo c g.nx d) (hi c g.nx d) (y d) := Or.inl ⟨hn, h1⟩
            rw [if_pos h1, if_pos hG]
            simp only [Src.val, sgn, srcJ, if_pos hn, if_pos e, Fld.val]
          · rw [if_neg h1, if_neg]
            rintro (⟨_, h⟩ | ⟨h, _⟩)
            · exact h1 h
            · exact h hn
      · obtain ⟨b', eb, hb⟩ := bcTrans_ok hg hd hk sd n (g.Bi n)
        refine ⟨b', by unfold bcFace; rw [if_neg e]; exact eb, ?_⟩
        have et : trF c g.nx d (.face n) = trB c g.nx d n := if_neg e
        rw [et]
        intro y hy
        rw [hb y hy]
        have hn : ¬ (Fld.face n).Nrm d := fun h => e (face_nrm.1 h)
        rw [if_neg (fun h : _ ∧ _ => hn h.1)]
        by_cases h1 : 1 ≤ depth sd (lo c g.nx d) (hi c g.nx d) (y d) ∧ depth sd (lo c g.nx d) (hi c g.nx d) (y d) ≤ c.ng
        · have hG : Ghost c sd d (.face n) (lo c g.nx d) (hi c g.nx d) (y d) := Or.inr ⟨hn, h1⟩
          rw [if_pos h1, if_pos hG]
          simp only [Src.val, sgn, srcJ, if_neg hn, if_neg e, Fld.val]
        · rw [if_neg h1, if_neg]
          rintro (⟨h, _⟩ | ⟨_, h⟩)
          · exact hn h
          · exact h1 h
    obtain ⟨b', eb, hb⟩ := hfaces
    refine ⟨⟨g.nx, u', b'⟩, ?_, hfill _ (fun _ => hb)⟩
    rw [cond_true, eb]; rfl

theorem filled_of_delivered {V : Type} [Neg V] [Zero V] {c : Cfg} {sd : Side} {d : Fin 3} {g h g' : Grid V}
    (hD : Delivered c sd d g h g') : Filled c sd d (.msg h) g g' := by
  refine ⟨hD.nx, ?_⟩
  intro f hf y hy
  rw [if_neg (fun h => h.2.1)]
  cases f with
  | cell v =>
    have hn := cell_not_nrm v d
    have := hD.cells y hy v hf
    simp only [Fld.val] at *
    rw [this]
    refine if_congr ?_ rfl rfl
    unfold Ghost
    constructor
    · exact fun h => Or.inr ⟨hn, h⟩
    · rintro (⟨h, _⟩ | ⟨_, h⟩)
      · exact absurd h hn
      · exact h
  | face n =>
    by_cases e : n = d
    · have hn : (Fld.face n).Nrm d := face_nrm.2 e
      have et : trF c g.nx d (.face n) = trU c g.nx d := if_pos e
      rw [et] at hy
      subst e
      have := hD.normal hf y hy
      simp only [Fld.val]
      rw [this]
      refine if_congr ?_ rfl rfl
      unfold Ghost
      constructor
      · exact fun h => Or.inl ⟨hn, h⟩
      · rintro (⟨_, h⟩ | ⟨h, _⟩)
        · exact h
        · exact absurd hn h
    · have hn : ¬ (Fld.face n).Nrm d := fun h => e (face_nrm.1 h)
      have et : trF c g.nx d (.face n) = trB c g.nx d n := if_neg e
      rw [et] at hy
      have := hD.trans hf n e y hy
      simp only [Fld.val]
      rw [this]
      refine if_congr ?_ rfl rfl
      unfold Ghost
      constructor
      · exact fun h => Or.inr ⟨hn, h⟩
      · rintro (⟨h, _⟩ | ⟨_, h⟩)
        · exact absurd h hn
        · exact h

/-- Both sides have been filled, from the values before. -/
structure Both {V : Type} [Neg V] [Zero V] (c : Cfg) (d : Fin 3) (sl sr : Src V) (g g' : Grid V) : Prop where
  nx : g'.nx = g.nx
  val : ∀ f : Fld, f.In c → ∀ y, TrIn (trF c g.nx d f) d y → f.val g' y =
    if f.Nrm d ∧ sl.Zeroes ∧ y d = lo c g.nx d then 0
    else if f.Nrm d ∧ sr.Zeroes ∧ y d = hi c g.nx d + 1 then 0
    else if Ghost c .inner d f (lo c g.nx d) (hi c g.nx d) (y d) then sl.val c .inner d g f y
    else if Ghost c .outer d f (lo c g.nx d) (hi c g.nx d) (y d) then sr.val c .outer d g f y
    else f.val g y

/-- A usable source: not `later`. -/
def Src.Ok {V : Type} : Src V → Prop
  | .bc k => k ≠ .later
  | .msg _ => True

/-- The source index of a boundary function is the index of an active zone or face, and not that of a face which the
other side sets to zero. -/
theorem srcJ_in {c : Cfg} {nx : Fin 3 → Nat} {d : Fin 3} (h : Dims c nx) (hd : 1 < nx d) {k : Kind} (hk : k ≠ .later)
    (sd : Side) (f : Fld) (j : Int) (hj : Ghost c sd d f (lo c nx d) (hi c nx d) j) :
    lo c nx d ≤ srcJ k sd d f (lo c nx d) (hi c nx d) j ∧ srcJ k sd d f (lo c nx d) (hi c nx d) j ≤ hi c nx d ∧
    (f.Nrm d → sd = .outer → lo c nx d < srcJ k sd d f (lo c nx d) (hi c nx d) j) := by
  have hx := h.zones d
  unfold srcJ
  rcases hj with ⟨hn, h1, h2⟩ | ⟨hn, h1, h2⟩
  · rw [if_pos hn]
    cases sd with
    | inner =>
      have e : depth .inner (lo c nx d) (hi c nx d) j = fdepth .inner (lo c nx d) (hi c nx d) j := rfl
      rw [e]
      have := (srcF_in h hd hk _ h1 h2).1
      exact ⟨this.1, this.2.1, fun _ h => by cases h⟩
    | outer =>
      have e : depth .outer (lo c nx d) (hi c nx d) j = fdepth .outer (lo c nx d) (hi c nx d) j + 1 := by
        simp only [depth, fdepth]; omega
      rw [e]
      have := (srcF_in h hd hk _ h1 h2).2
      refine ⟨this.1, this.2.1, fun _ _ => ?_⟩
      rw [lo_pos hd, hi_pos hd] at *
      cases k <;> simp only [srcF] at * <;> first | exact absurd rfl hk | omega
  · rw [if_neg hn]
    have := srcI_in h hd hk sd _ h1 h2
    exact ⟨this.1, this.2, fun h => absurd h hn⟩

theorem src_val_congr {V : Type} [Neg V] {c : Cfg} {sd : Side} {d : Fin 3} {g g1 : Grid V} {f : Fld} {y : Idx} (s : Src V)
    (hnx : g1.nx = g.nx) (h : ∀ k, s = .bc k → f.val g1 (setD y d (srcJ k sd d f (lo c g.nx d) (hi c g.nx d) (y d))) =
      f.val g (setD y d (srcJ k sd d f (lo c g.nx d) (hi c g.nx d) (y d)))) :
    s.val c sd d g1 f y = s.val c sd d g f y := by
  cases s with
  | bc k => simp only [Src.val]; rw [hnx, h k rfl]
  | msg m => simp only [Src.val]; rw [hnx]

theorem ghost_inner_lt {c : Cfg} {nx : Fin 3 → Nat} {d : Fin 3} (f : Fld) (j : Int)
    (h : Ghost c .inner d f (lo c nx d) (hi c nx d) j) : j < lo c nx d := by
  rcases h with ⟨_, h, _⟩ | ⟨_, h, _⟩ <;> simp only [fdepth, depth] at h <;> omega

theorem ghost_outer_gt {c : Cfg} {nx : Fin 3 → Nat} {d : Fin 3} (f : Fld) (j : Int)
    (h : Ghost c .outer d f (lo c nx d) (hi c nx d) j) : hi c nx d < j ∧ (f.Nrm d → hi c nx d + 1 < j) := by
  rcases h with ⟨_, h, _⟩ | ⟨hn, h, _⟩ <;> simp only [fdepth, depth] at h
  · exact ⟨by omega, fun _ => by omega⟩
  · exact ⟨by omega, fun hh => absurd hh hn⟩

theorem lo_le_hi {c : Cfg} {nx : Fin 3 → Nat} {d : Fin 3} (hd : 1 < nx d) : lo c nx d < hi c nx d := by
  rw [lo_pos hd, hi_pos hd]; omega

theorem both_inner_outer {V : Type} [Neg V] [Zero V] {c : Cfg} {d : Fin 3} {sl sr : Src V} {g g1 g2 : Grid V}
    (hg : Dims c g.nx) (hd : 1 < g.nx d) (hr : sr.Ok) (h1 : Filled c .inner d sl g g1) (h2 : Filled c .outer d sr g1 g2) :
    Both c d sl sr g g2 := by
  refine ⟨h2.nx.trans h1.nx, ?_⟩
  intro f hf y hy
  have a1 := h1.val f hf y hy
  have a2 := h2.val f hf y (by rw [h1.nx]; exact hy)
  rw [h1.nx] at a2
  have hlh := lo_le_hi (c := c) hd
  have ef : fdepth .inner (lo c g.nx d) (hi c g.nx d) (y d) = lo c g.nx d - y d := rfl
  have ef2 : fdepth .outer (lo c g.nx d) (hi c g.nx d) (y d) = y d - hi c g.nx d - 1 := rfl
  rw [ef] at a1
  rw [ef2] at a2
  rw [a2]
  by_cases z2 : f.Nrm d ∧ sr.Zeroes ∧ y d = hi c g.nx d + 1
  · rw [if_pos ⟨z2.1, z2.2.1, by omega⟩, if_neg (by rintro ⟨_, _, h⟩; omega), if_pos z2]
  · rw [if_neg (by rintro ⟨a, b, h⟩; exact z2 ⟨a, b, by omega⟩), if_neg z2]
    by_cases gh2 : Ghost c .outer d f (lo c g.nx d) (hi c g.nx d) (y d)
    · have hgt := ghost_outer_gt f _ gh2
      rw [if_pos gh2, if_neg (by rintro ⟨_, _, h⟩; omega), if_neg (fun h => by have := ghost_inner_lt f _ h; omega), if_pos gh2]
      apply src_val_congr _ h1.nx
      intro k hk
      have hk' : k ≠ .later := by rw [hk] at hr; exact hr
      have hs := srcJ_in hg hd hk' .outer f _ gh2
      have b1 := h1.val f hf _ ((trIn_setD (j := srcJ k .outer d f (lo c g.nx d) (hi c g.nx d) (y d))).2 hy)
      rw [b1, setD_self, if_neg, if_neg]
      · intro h; have := ghost_inner_lt f _ h; omega
      · rintro ⟨hn, _, h⟩; simp only [fdepth] at h; have := hs.2.2 hn rfl; omega
    · rw [if_neg gh2, a1]
      by_cases z1 : f.Nrm d ∧ sl.Zeroes ∧ y d = lo c g.nx d
      · rw [if_pos z1, if_pos ⟨z1.1, z1.2.1, by omega⟩]
      · rw [if_neg z1, if_neg (by rintro ⟨a, b, h⟩; exact z1 ⟨a, b, by omega⟩), if_neg gh2]

theorem both_outer_inner {V : Type} [Neg V] [Zero V] {c : Cfg} {d : Fin 3} {sl sr : Src V} {g g1 g2 : Grid V}
    (hg : Dims c g.nx) (hd : 1 < g.nx d) (hl : sl.Ok) (h1 : Filled c .outer d sr g g1) (h2 : Filled c .inner d sl g1 g2) :
    Both c d sl sr g g2 := by
  refine ⟨h2.nx.trans h1.nx, ?_⟩
  intro f hf y hy
  have a1 := h1.val f hf y hy
  have a2 := h2.val f hf y (by rw [h1.nx]; exact hy)
  rw [h1.nx] at a2
  have hlh := lo_le_hi (c := c) hd
  have ef : fdepth .inner (lo c g.nx d) (hi c g.nx d) (y d) = lo c g.nx d - y d := rfl
  have ef2 : fdepth .outer (lo c g.nx d) (hi c g.nx d) (y d) = y d - hi c g.nx d - 1 := rfl
  rw [ef2] at a1
  rw [ef] at a2
  rw [a2]
  by_cases z1 : f.Nrm d ∧ sl.Zeroes ∧ y d = lo c g.nx d
  · rw [if_pos ⟨z1.1, z1.2.1, by omega⟩, if_pos z1]
  · rw [if_neg (by rintro ⟨a, b, h⟩; exact z1 ⟨a, b, by omega⟩), if_neg z1]
    by_cases gh1 : Ghost c .inner d f (lo c g.nx d) (hi c g.nx d) (y d)
    · have hlt := ghost_inner_lt f _ gh1
      rw [if_pos gh1, if_neg (by rintro ⟨_, _, h⟩; omega), if_pos gh1]
      apply src_val_congr _ h1.nx
      intro k hk
      have hk' : k ≠ .later := by rw [hk] at hl; exact hl
      have hs := srcJ_in hg hd hk' .inner f _ gh1
      have b1 := h1.val f hf _ ((trIn_setD (j := srcJ k .inner d f (lo c g.nx d) (hi c g.nx d) (y d))).2 hy)
      rw [b1, setD_self, if_neg, if_neg]
      · intro h; have := ghost_outer_gt f _ h; omega
      · rintro ⟨_, _, h⟩; simp only [fdepth] at h; omega
    · rw [if_neg gh1, a1, if_neg gh1]
      by_cases z2 : f.Nrm d ∧ sr.Zeroes ∧ y d = hi c g.nx d + 1
      · rw [if_pos z2, if_pos ⟨z2.1, z2.2.1, by omega⟩]
      · rw [if_neg z2, if_neg (by rintro ⟨a, b, h⟩; exact z2 ⟨a, b, by omega⟩)]

/-! ### The buffer is large enough -/

/-- `C` is a Grid of the Domain. -/
def Dom.Has (D : Dom) (C : Coord) : Prop := ∀ t, C t < D.NG t

theorem mem_coords {D : Dom} {C : Coord} (h : D.Has C) : C ∈ D.coords := by
  unfold Dom.coords
  rw [List.mem_flatMap]
  refine ⟨C 2, List.mem_range.2 (h 2), ?_⟩
  rw [List.mem_flatMap]
  refine ⟨C 1, List.mem_range.2 (h 1), ?_⟩
  rw [List.mem_map]
  refine ⟨C 0, List.mem_range.2 (h 0), ?_⟩
  funext t
  have : t = 0 ∨ t = 1 ∨ t = 2 := by fin_cases t <;> decide
  rcases this with rfl | rfl | rfl <;> rfl

theorem foldMax_ge {α : Type} (f : α → Nat) (l : List α) (a : Nat) :
    a ≤ l.foldl (fun a C => if f C > a then f C else a) a := by
  induction l generalizing a with
  | nil => exact Nat.le_refl _
  | cons b l ih =>
    have := ih (if f b > a then f b else a)
    simp only [List.foldl_cons]
    split_ifs at this ⊢ with h <;> omega

theorem foldMax_mem {α : Type} (f : α → Nat) (l : List α) (a : Nat) (x : α) (hx : x ∈ l) :
    f x ≤ l.foldl (fun a C => if f C > a then f C else a) a := by
  induction l generalizing a with
  | nil => cases hx
  | cons b l ih =>
    simp only [List.foldl_cons]
    rcases List.mem_cons.1 hx with rfl | h
    · have := foldMax_ge f l (if f x > a then f x else a)
      split_ifs at this ⊢ with h <;> omega
    · exact ih _ h

theorem domCnt_ge (c : Cfg) (D : Dom) (d : Fin 3) (x : Nat) : x ≤ domCnt c D d x := by
  unfold domCnt
  split_ifs
  · exact foldMax_ge _ _ _
  · exact Nat.le_refl _

theorem area_le_domCnt {c : Cfg} {D : Dom} {d : Fin 3} {C : Coord} (x : Nat) (h : D.Has C) (hN : 1 < D.NG d) :
    area c (D.gnx C) d ≤ domCnt c D d x := by
  unfold domCnt
  rw [if_pos hN]
  exact foldMax_mem (fun C => area c (D.gnx C) d) _ _ _ (mem_coords h)

theorem domFold_ge (c : Cfg) (d : Fin 3) (Ds : List Dom) (a : Nat) : a ≤ Ds.foldl (fun a D => domCnt c D d a) a := by
  induction Ds generalizing a with
  | nil => exact Nat.le_refl _
  | cons D Ds ih => exact Nat.le_trans (domCnt_ge c D d a) (ih _)

theorem area_le_fold {c : Cfg} {D : Dom} {d : Fin 3} {C : Coord} (Ds : List Dom) (a : Nat) (hD : D ∈ Ds) (h : D.Has C)
    (hN : 1 < D.NG d) : area c (D.gnx C) d ≤ Ds.foldl (fun a D => domCnt c D d a) a := by
  induction Ds generalizing a with
  | nil => cases hD
  | cons E Ds ih =>
    rw [List.foldl_cons]
    rcases List.mem_cons.1 hD with rfl | hm
    · exact Nat.le_trans (area_le_domCnt a h hN) (domFold_ge _ _ _ _)
    · exact ih _ hm

theorem cnt_le_area {c : Cfg} {nx : Fin 3 → Nat} {d : Fin 3} (h : Dims c nx) (hd : 1 < nx d) :
    cnt c nx d ≤ (area c nx d * (c.ng * (if c.mhd then nvar c + 3 else nvar c)) : Nat) := by
  have hg := h.ghosts
  have z0 := h.zones 0
  have z1 := h.zones 1
  have z2 := h.zones 2
  have n1 := h.nest 0 1 (by decide)
  have n2 := h.nest 0 2 (by decide)
  have n3 := h.nest 1 2 (by decide)
  have key : ∀ (a b A B c2 c3 g nv : Int), 0 ≤ a → 0 ≤ b → a ≤ A → b ≤ B → c2 ≤ A → c3 ≤ B → 1 ≤ g → 0 ≤ nv → 0 ≤ c2 → 0 ≤ c3 →
      a * b * g * nv ≤ A * B * g * nv ∧ a * b * (g - 1) ≤ A * B * g ∧ c2 * b * g ≤ A * B * g ∧ a * c3 * g ≤ A * B * g := by
    intro a b A B c2 c3 g nv h1 h2 h3 h4 h5 h6 h7 h8 h9 h10
    have hA : 0 ≤ A := by omega
    have hB : 0 ≤ B := by omega
    have hg0 : 0 ≤ g := by omega
    have hg1 : 0 ≤ g - 1 := by omega
    refine ⟨by gcongr, ?_, by gcongr, by gcongr⟩
    calc a * b * (g - 1) ≤ A * B * (g - 1) := by gcongr
      _ ≤ A * B * g := by gcongr; omega
  have hd' : d = 0 ∨ d = 1 ∨ d = 2 := by fin_cases d <;> decide
  rcases hd' with rfl | rfl | rfl
  · have := key (nx 1) (nx 2) ((if nx 1 > 1 then nx 1 + 1 else nx 1 : Nat) : Int) ((if nx 2 > 1 then nx 2 + 1 else nx 2 : Nat) : Int)
      (if nx 1 > 1 then nx 1 + 1 else 1) (if nx 2 > 1 then nx 2 + 1 else 1) c.ng (nvar c)
      (by omega) (by omega) (by split_ifs <;> omega) (by split_ifs <;> omega) (by split_ifs <;> omega) (by split_ifs <;> omega)
      (by omega) (by omega) (by split_ifs <;> omega) (by split_ifs <;> omega)
    unfold cnt area
    simp only [Fin.isValue, Fin.reduceEq, reduceIte]
    generalize ((if nx 1 > 1 then nx 1 + 1 else nx 1 : Nat)) = A at *
    generalize ((if nx 2 > 1 then nx 2 + 1 else nx 2 : Nat)) = B at *
    generalize (if nx 1 > 1 then (nx 1 : Int) + 1 else 1) = c2 at *
    generalize (if nx 2 > 1 then (nx 2 : Int) + 1 else 1) = c3 at *
    obtain ⟨k1, k2, k3, k4⟩ := this
    cases c.mhd
    · simp only [Bool.false_eq_true, reduceIte]; push_cast; linarith
    · simp only [reduceIte]; push_cast; linarith
  · have h0 := n1 hd
    have := key (nx 0 + 2 * c.ng) (nx 2) (nx 0 + 2 * c.ng) ((if nx 2 > 1 then nx 2 + 1 else nx 2 : Nat) : Int)
      (nx 0 + 2 * c.ng - 1) (if nx 2 > 1 then nx 2 + 1 else 1) c.ng (nvar c)
      (by omega) (by omega) (by omega) (by split_ifs <;> omega) (by omega) (by split_ifs <;> omega)
      (by omega) (by omega) (by omega) (by split_ifs <;> omega)
    unfold cnt area
    simp only [Fin.isValue, Fin.reduceEq, reduceIte, if_pos (show nx 0 > 1 from h0)]
    generalize ((if nx 2 > 1 then nx 2 + 1 else nx 2 : Nat)) = B at *
    generalize (if nx 2 > 1 then (nx 2 : Int) + 1 else 1) = c3 at *
    obtain ⟨k1, k2, k3, k4⟩ := this
    cases c.mhd
    · simp only [Bool.false_eq_true, reduceIte]; push_cast; linarith
    · simp only [reduceIte]; push_cast; linarith
  · have h0 := n2 hd
    have h1 := n3 hd
    have := key (nx 0 + 2 * c.ng) (nx 1 + 2 * c.ng) (nx 0 + 2 * c.ng) (nx 1 + 2 * c.ng)
      (nx 0 + 2 * c.ng - 1) (nx 1 + 2 * c.ng - 1) c.ng (nvar c)
      (by omega) (by omega) (by omega) (by omega) (by omega) (by omega) (by omega) (by omega) (by omega) (by omega)
    unfold cnt area
    simp only [Fin.isValue, Fin.reduceEq, reduceIte, if_pos (show nx 0 > 1 from h0), if_pos (show nx 1 > 1 from h1)]
    obtain ⟨k1, k2, k3, k4⟩ := this
    cases c.mhd
    · simp only [Bool.false_eq_true, reduceIte]; push_cast; linarith
    · simp only [reduceIte]; push_cast; linarith

/-- A message of any Grid of any of the Domains fits into the buffers. -/
theorem cnt_le_bufSize {c : Cfg} {D : Dom} {Ds : List Dom} {d : Fin 3} {C : Coord} (hD : D ∈ Ds) (h : D.Has C)
    (hdim : Dims c (D.gnx C)) (hd : 1 < D.gnx C d) (hN : 1 < D.NG d) : cnt c (D.gnx C) d ≤ bufSize c Ds := by
  refine Int.le_trans (cnt_le_area hdim hd) ?_
  have ha := fun d' (hd : d = d') => area_le_fold (c := c) (d := d') Ds 0 hD h (hd ▸ hN)
  unfold bufSize
  dsimp only
  refine Int.ofNat_le.2 (Nat.mul_le_mul_right _ ?_)
  have hd' : d = 0 ∨ d = 1 ∨ d = 2 := by fin_cases d <;> decide
  rcases hd' with rfl | rfl | rfl
  · have := ha 0 rfl; split_ifs <;> omega
  · have := ha 1 rfl; split_ifs <;> omega
  · have := ha 2 rfl; split_ifs <;> omega

/-! ### One direction -/

/-- The Domains the theorems are about.  `zones` (with `split`): in a direction divided among several Grids
every Grid has at least two zones, and not fewer than the ghost zones. -/
structure DomOk (c : Cfg) (sz : Nat) (D : Dom) : Prop where
  dims : ∀ C, D.Has C → Dims c (D.gnx C)
  split : ∀ t, 1 < D.NG t → ∀ i, i < D.NG t → 1 < D.nx t i
  kin : ∀ t, D.bcIn t ≠ .later
  kout : ∀ t, D.bcOut t ≠ .later
  per : ∀ t, 1 < D.NG t → (D.bcIn t = .periodic ↔ D.bcOut t = .periodic)
  buf : ∀ C d, D.Has C → 1 < D.NG d → cnt c (D.gnx C) d ≤ sz

def srcL {V : Type} (D : Dom) (d : Fin 3) (C : Coord) (s : Coord → Grid V) : Src V :=
  match left D d C with | some l => .msg (s l) | none => .bc (D.bcIn d)

def srcR {V : Type} (D : Dom) (d : Fin 3) (C : Coord) (s : Coord → Grid V) : Src V :=
  match right D d C with | some r => .msg (s r) | none => .bc (D.bcOut d)

theorem has_setD {D : Dom} {C : Coord} {d : Fin 3} {i : Nat} (h : D.Has C) (hi : i < D.NG d) : D.Has (setD C d i) := by
  intro t
  by_cases e : t = d
  · subst e; rw [setD_self]; exact hi
  · rw [setD_ne _ _ _ _ e]; exact h t

theorem left_spec {c : Cfg} {sz : Nat} {D : Dom} (hD : DomOk c sz D) {d : Fin 3} {C l : Coord} (h : D.Has C)
    (e : left D d C = some l) : 1 < D.NG d ∧ D.Has l ∧ right D d l = some C ∧ (∀ t, t ≠ d → l t = C t) := by
  have hC := h d
  unfold left at e
  by_cases h0 : C d > 0
  · rw [if_pos h0] at e
    injection e with e
    subst e
    refine ⟨by omega, has_setD h (by omega), ?_, fun t ht => setD_ne _ _ _ _ ht⟩
    unfold right
    rw [setD_self, if_pos (by omega), setD_setD, show C d - 1 + 1 = C d by omega, setD_eta]
  · rw [if_neg h0] at e
    by_cases hp : D.bcIn d = .periodic ∧ D.NG d > 1
    · rw [if_pos hp] at e
      injection e with e
      subst e
      refine ⟨hp.2, has_setD h (by omega), ?_, fun t ht => setD_ne _ _ _ _ ht⟩
      unfold right
      rw [setD_self, if_neg (by omega), if_pos ⟨(hD.per d hp.2).1 hp.1, hp.2⟩, setD_setD, show 0 = C d by omega, setD_eta]
    · rw [if_neg hp] at e; cases e

theorem right_spec {c : Cfg} {sz : Nat} {D : Dom} (hD : DomOk c sz D) {d : Fin 3} {C r : Coord} (h : D.Has C)
    (e : right D d C = some r) : 1 < D.NG d ∧ D.Has r ∧ left D d r = some C ∧ (∀ t, t ≠ d → r t = C t) := by
  have hC := h d
  unfold right at e
  by_cases h0 : C d + 1 < D.NG d
  · rw [if_pos h0] at e
    injection e with e
    subst e
    refine ⟨by omega, has_setD h (by omega), ?_, fun t ht => setD_ne _ _ _ _ ht⟩
    unfold left
    rw [setD_self, if_pos (by omega), setD_setD, show C d + 1 - 1 = C d by omega, setD_eta]
  · rw [if_neg h0] at e
    by_cases hp : D.bcOut d = .periodic ∧ D.NG d > 1
    · rw [if_pos hp] at e
      injection e with e
      subst e
      refine ⟨hp.2, has_setD h (by omega), ?_, fun t ht => setD_ne _ _ _ _ ht⟩
      unfold left
      rw [setD_self, if_neg (by omega), if_pos ⟨(hD.per d hp.2).2 hp.1, hp.2⟩, setD_setD, show D.NG d - 1 = C d by omega, setD_eta]
    · rw [if_neg hp] at e; cases e

/-- One direction, on a Grid with more than one zone in it. -/
theorem stage_ok {V : Type} [Neg V] [Zero V] {c : Cfg} {sz : Nat} {D : Dom} (hD : DomOk c sz D) (o : Bool) (d : Fin 3)
    (st : Coord → Res (Grid V)) (s : Coord → Grid V) (hst : ∀ C, D.Has C → st C = .ok (s C))
    (hnx : ∀ C, D.Has C → (s C).nx = D.gnx C) {C : Coord} (hC : D.Has C) (hd : 1 < D.gnx C d) :
    ∃ g', stage c sz D o d st C = .ok g' ∧ Both c d (srcL D d C s) (srcR D d C s) (s C) g' := by
  have hgd : 1 < (s C).nx d := by rw [hnx C hC]; exact hd
  have hdim : Dims c (s C).nx := by rw [hnx C hC]; exact hD.dims C hC
  have nbr : ∀ x, 1 < D.NG d → D.Has x → (∀ t, t ≠ d → x t = C t) →
      ∀ (g : Grid V) (sd : Side), g.nx = (s C).nx → ∃ m g', send c sz (opp sd) d (s x) = .ok m ∧ recv c sz sd d m g = .ok g' ∧
        Filled c sd d (.msg (s x)) g g' := by
    intro x hN hx heq g sd hg
    obtain ⟨m, g', e1, e2, e3, _⟩ := exchange g (s x) (d := d) (by rw [hg]; exact hdim) (by rw [hnx x hx]; exact hD.dims x hx)
      (by rw [hg]; exact hgd) (by rw [hnx x hx]; exact hD.split d hN _ (hx d))
      (by intro t ht; rw [hg, hnx C hC, hnx x hx]; unfold Dom.gnx; rw [heq t ht]) sd sz
      (by rw [hg, hnx C hC]; exact hD.buf C d hC hN)
    exact ⟨m, g', e1, e2, filled_of_delivered e3⟩
  have nd : ∀ x, 1 < D.NG d → D.Has x → (s x).nx d > 1 := by
    intro x hN hx; rw [hnx x hx]; exact hD.split d hN _ (hx d)
  unfold stage
  rw [hst C hC, Res.bind_ok, if_pos hgd]
  unfold srcL srcR
  cases hl : left D d C with
  | none =>
    cases hr : right D d C with
    | none =>
      dsimp only
      obtain ⟨g1, e1, f1⟩ := fill_bc (s C) hdim hgd (hD.kin d) .inner
      obtain ⟨g2, e2, f2⟩ := fill_bc g1 (d := d) (by rw [f1.nx]; exact hdim) (by rw [f1.nx]; exact hgd) (hD.kout d) .outer
      rw [e1, Res.bind_ok, e2]
      exact ⟨g2, rfl, both_inner_outer hdim hgd (show Src.Ok (.bc _) from hD.kout d) f1 f2⟩
    | some r =>
      dsimp only
      obtain ⟨hN, hx, hb, heq⟩ := right_spec hD hC hr
      obtain ⟨g1, e1, f1⟩ := fill_bc (s C) hdim hgd (hD.kin d) .inner
      obtain ⟨m, g2, e2, e3, f2⟩ := nbr r hN hx heq g1 .outer f1.nx
      have e2 : send c sz .inner d (s r) = .ok m := e2
      unfold fromRight
      rw [hst r hx, Res.bind_ok, if_pos ⟨hb, nd _ hN hx⟩, e2, Res.bind_ok, e1, Res.bind_ok, e3]
      exact ⟨g2, rfl, both_inner_outer hdim hgd (show Src.Ok (.msg _) from trivial) f1 f2⟩
  | some l =>
    obtain ⟨hN, hx, hb, heq⟩ := left_spec hD hC hl
    cases hr : right D d C with
    | none =>
      dsimp only
      obtain ⟨g1, e1, f1⟩ := fill_bc (s C) hdim hgd (hD.kout d) .outer
      obtain ⟨m, g2, e2, e3, f2⟩ := nbr l hN hx heq g1 .inner f1.nx
      have e2 : send c sz .outer d (s l) = .ok m := e2
      unfold fromLeft
      rw [hst l hx, Res.bind_ok, if_pos ⟨hb, nd _ hN hx⟩, e2, Res.bind_ok, e1, Res.bind_ok, e3]
      exact ⟨g2, rfl, both_outer_inner hdim hgd (show Src.Ok (.msg _) from trivial) f1 f2⟩
    | some r =>
      dsimp only
      obtain ⟨_, hxr, hbr, heqr⟩ := right_spec hD hC hr
      unfold fromLeft fromRight
      rw [hst l hx, Res.bind_ok, if_pos ⟨hb, nd _ hN hx⟩, hst r hxr]
      cases o
      · obtain ⟨mR, g1, e1, e2, f1⟩ := nbr r hN hxr heqr (s C) .outer rfl
        obtain ⟨mL, g2, e3, e4, f2⟩ := nbr l hN hx heq g1 .inner f1.nx
        have e1 : send c sz .inner d (s r) = .ok mR := e1
        have e3 : send c sz .outer d (s l) = .ok mL := e3
        rw [e3, Res.bind_ok, Res.bind_ok, if_pos ⟨hbr, nd _ hN hxr⟩, e1, Res.bind_ok, if_neg (by decide), e2, Res.bind_ok, e4]
        exact ⟨g2, rfl, both_outer_inner hdim hgd (show Src.Ok (.msg _) from trivial) f1 f2⟩
      · obtain ⟨mL, g1, e3, e4, f1⟩ := nbr l hN hx heq (s C) .inner rfl
        obtain ⟨mR, g2, e1, e2, f2⟩ := nbr r hN hxr heqr g1 .outer f1.nx
        have e1 : send c sz .inner d (s r) = .ok mR := e1
        have e3 : send c sz .outer d (s l) = .ok mL := e3
        rw [e3, Res.bind_ok, Res.bind_ok, if_pos ⟨hbr, nd _ hN hxr⟩, e1, Res.bind_ok, if_pos rfl, e4, Res.bind_ok, e2]
        exact ⟨g2, rfl, both_inner_outer hdim hgd (show Src.Ok (.msg _) from trivial) f1 f2⟩

end Athena.Bvals
