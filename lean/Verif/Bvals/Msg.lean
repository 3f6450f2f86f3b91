import Verif.Bvals.Ops

/-! Packing, sending, receiving and unpacking one message. -/

namespace Athena.Bvals

theorem length_vars (c : Cfg) : (vars c).length = nvar c := by
  unfold vars nvar
  cases c.barotropic <;> cases c.mhd <;> simp <;> omega

theorem length_box_int (r : Rng) (h : ∀ t, 0 ≤ (r t).2 + 1 - (r t).1) :
    ((box r).length : Int) = ((r 2).2 + 1 - (r 2).1) * (((r 1).2 + 1 - (r 1).1) * ((r 0).2 + 1 - (r 0).1)) := by
  rw [length_box]
  push_cast
  rw [Int.toNat_of_nonneg (h 0), Int.toNat_of_nonneg (h 1), Int.toNat_of_nonneg (h 2)]

theorem width_active {c : Cfg} {nx : Fin 3 → Nat} (h : Dims c nx) (t : Fin 3) : hi c nx t + 1 - lo c nx t = nx t := by
  have := h.zones t
  by_cases ht : 1 < nx t
  · rw [lo_pos ht, hi_pos ht]; omega
  · rw [lo_one ht, hi_one ht]; omega

theorem width_U {c : Cfg} {nx : Fin 3 → Nat} (h : Dims c nx) (d t : Fin 3) :
    (trU c nx d t).2 + 1 - (trU c nx d t).1 = if t < d then (nx t : Int) + 2 * c.ng else nx t := by
  have := width_active h t
  unfold trU
  by_cases e : t < d
  · rw [if_pos e, if_pos e]; dsimp only; omega
  · rw [if_neg e, if_neg e]; dsimp only; omega

theorem width_B {c : Cfg} {nx : Fin 3 → Nat} (h : Dims c nx) (d n t : Fin 3) :
    (trB c nx d n t).2 + 1 - (trB c nx d n t).1 =
      if t = n then (if t < d then (nx t : Int) + 2 * c.ng - 1 else if nx t > 1 then (nx t : Int) + 1 else 1)
      else if t < d then (nx t : Int) + 2 * c.ng else nx t := by
  have := width_active h t
  have hz := h.zones t
  unfold trB
  by_cases e : t = n
  · subst e
    rw [if_pos rfl, if_pos rfl]
    by_cases e : t < d
    · rw [if_pos e, if_pos e]; dsimp only; omega
    · rw [if_neg e, if_neg e]
      by_cases ht : nx t > 1
      · rw [if_pos ht, if_pos ht]; dsimp only; omega
      · rw [if_neg ht, if_neg ht]; dsimp only; omega
  · rw [if_neg e, if_neg e]; exact width_U h d t

theorem length_packU {c : Cfg} {nx : Fin 3 → Nat} (h : Dims c nx) (d : Fin 3) (sd : Side) :
    ((box (setD (trU c nx d) d (packR c sd (lo c nx d) (hi c nx d)))).length : Int) =
      c.ng * ((if d = 0 then (nx 1 : Int) else nx 0 + 2 * c.ng) *
        (if d = 2 then (nx 1 : Int) + 2 * c.ng else nx 2)) := by
  have hg := h.ghosts
  have hp : ∀ a b : Int, a = b → a * 1 = b := by intros; omega
  have hw := width_U h d
  have hpk : (packR c sd (lo c nx d) (hi c nx d)).2 + 1 - (packR c sd (lo c nx d) (hi c nx d)).1 = c.ng := by
    cases sd <;> simp only [packR] <;> omega
  have hn : ∀ t, 0 ≤ ((setD (trU c nx d) d (packR c sd (lo c nx d) (hi c nx d))) t).2 + 1 -
      ((setD (trU c nx d) d (packR c sd (lo c nx d) (hi c nx d))) t).1 := by
    intro t
    by_cases e : t = d
    · subst e; rw [setD_self, hpk]; omega
    · rw [setD_ne _ _ _ _ e, hw t]; split_ifs <;> omega
  rw [length_box_int _ hn]
  have e0 := hw 0
  have e1 := hw 1
  have e2 := hw 2
  have hd : d = 0 ∨ d = 1 ∨ d = 2 := by fin_cases d <;> decide
  rcases hd with rfl | rfl | rfl
  · rw [setD_self, setD_ne _ _ _ _ (by decide), setD_ne _ _ _ _ (by decide), hpk, e1, e2,
      if_neg (by decide), if_neg (by decide), if_pos rfl, if_neg (by decide)]; ring
  · rw [setD_self, setD_ne _ _ _ _ (by decide), setD_ne _ _ _ _ (by decide), hpk, e0, e2,
      if_neg (by decide), if_pos (by decide), if_neg (by decide), if_neg (by decide)]; ring
  · rw [setD_self, setD_ne _ _ _ _ (by decide), setD_ne _ _ _ _ (by decide), hpk, e0, e1,
      if_pos (by decide), if_pos (by decide), if_neg (by decide), if_pos rfl]; ring

theorem length_packB {c : Cfg} {nx : Fin 3 → Nat} (h : Dims c nx) (d : Fin 3) (hd : 1 < nx d) (sd : Side) (n : Fin 3) :
    ((box (msgRng c nx d n (packR c sd (lo c nx d) (hi c nx d)) (packRn c sd (lo c nx d) (hi c nx d)))).length : Int) =
      (if n = d then (c.ng : Int) - 1 else c.ng) *
      ((if d = 0 then (if n = 1 then (if nx 1 > 1 then (nx 1 : Int) + 1 else 1) else nx 1)
         else (if n = 0 then (nx 0 : Int) + 2 * c.ng - 1 else nx 0 + 2 * c.ng)) *
       (if d = 2 then (if n = 1 then (nx 1 : Int) + 2 * c.ng - 1 else (nx 1 : Int) + 2 * c.ng)
         else (if n = 2 then (if nx 2 > 1 then (nx 2 : Int) + 1 else 1) else nx 2))) := by
  have hg := h.ghosts
  have hU := width_U h d
  have hB := width_B h d n
  have hpk : (packR c sd (lo c nx d) (hi c nx d)).2 + 1 - (packR c sd (lo c nx d) (hi c nx d)).1 = c.ng := by
    cases sd <;> simp only [packR] <;> omega
  have hpn : (packRn c sd (lo c nx d) (hi c nx d)).2 + 1 - (packRn c sd (lo c nx d) (hi c nx d)).1 = c.ng - 1 := by
    cases sd <;> simp only [packRn] <;> omega
  unfold msgRng
  by_cases en : n = d
  · subst en
    rw [if_pos rfl, if_pos rfl]
    have hn : ∀ t, 0 ≤ ((setD (trU c nx n) n (packRn c sd (lo c nx n) (hi c nx n))) t).2 + 1 -
        ((setD (trU c nx n) n (packRn c sd (lo c nx n) (hi c nx n))) t).1 := by
      intro t
      by_cases e : t = n
      · subst e; rw [setD_self, hpn]; omega
      · rw [setD_ne _ _ _ _ e, hU t]; split_ifs <;> omega
    rw [length_box_int _ hn]
    have e0 := hU 0
    have e1 := hU 1
    have e2 := hU 2
    have hd : n = 0 ∨ n = 1 ∨ n = 2 := by fin_cases n <;> decide
    rcases hd with rfl | rfl | rfl
    · rw [setD_self, setD_ne _ _ _ _ (by decide), setD_ne _ _ _ _ (by decide), hpn, e1, e2,
        if_neg (by decide), if_neg (by decide), if_pos rfl, if_neg (by decide), if_neg (by decide), if_neg (by decide)]; ring
    · rw [setD_self, setD_ne _ _ _ _ (by decide), setD_ne _ _ _ _ (by decide), hpn, e0, e2,
        if_neg (by decide), if_pos (by decide), if_neg (by decide), if_neg (by decide), if_neg (by decide), if_neg (by decide)]; ring
    · rw [setD_self, setD_ne _ _ _ _ (by decide), setD_ne _ _ _ _ (by decide), hpn, e0, e1,
        if_pos (by decide), if_pos (by decide), if_neg (by decide), if_neg (by decide), if_pos rfl, if_neg (by decide)]; ring
  · rw [if_neg en, if_neg en]
    have hn : ∀ t, 0 ≤ ((setD (trB c nx d n) d (packR c sd (lo c nx d) (hi c nx d))) t).2 + 1 -
        ((setD (trB c nx d n) d (packR c sd (lo c nx d) (hi c nx d))) t).1 := by
      intro t
      by_cases e : t = d
      · subst e; rw [setD_self, hpk]; omega
      · rw [setD_ne _ _ _ _ e, hB t]; split_ifs <;> omega
    rw [length_box_int _ hn]
    have e0 := hB 0
    have e1 := hB 1
    have e2 := hB 2
    have hd' : d = 0 ∨ d = 1 ∨ d = 2 := by fin_cases d <;> decide
    have hn' : n = 0 ∨ n = 1 ∨ n = 2 := by fin_cases n <;> decide
    rcases hd' with rfl | rfl | rfl
    · rw [setD_self, setD_ne _ _ _ _ (by decide), setD_ne _ _ _ _ (by decide), hpk, e1, e2]
      rcases hn' with rfl | rfl | rfl
      · exact absurd rfl en
      · simp only [Fin.isValue, Fin.reduceEq, Fin.reduceLT, reduceIte]; ring
      · simp only [Fin.isValue, Fin.reduceEq, Fin.reduceLT, reduceIte]; ring
    · rw [setD_self, setD_ne _ _ _ _ (by decide), setD_ne _ _ _ _ (by decide), hpk, e0, e2]
      rcases hn' with rfl | rfl | rfl
      · simp only [Fin.isValue, Fin.reduceEq, Fin.reduceLT, reduceIte]; ring
      · exact absurd rfl en
      · simp only [Fin.isValue, Fin.reduceEq, Fin.reduceLT, reduceIte]; ring
    · rw [setD_self, setD_ne _ _ _ _ (by decide), setD_ne _ _ _ _ (by decide), hpk, e0, e1]
      rcases hn' with rfl | rfl | rfl
      · simp only [Fin.isValue, Fin.reduceEq, Fin.reduceLT, reduceIte]; ring
      · simp only [Fin.isValue, Fin.reduceEq, Fin.reduceLT, reduceIte]; ring
      · exact absurd rfl en

theorem length_cells {V : Type} (c : Cfg) (l : List Idx) (w : Idx → Var → V) :
    (l.flatMap (fun x => (vars c).map (w x))).length = l.length * nvar c := by
  simp only [List.length_flatMap, List.length_map, length_vars, sum_const]

/-- The words of a message. -/
def cellWords {V : Type} (c : Cfg) (sd : Side) (d : Fin 3) (g : Grid V) : List V :=
  (box (setD (trU c g.nx d) d (packR c sd (lo c g.nx d) (hi c g.nx d)))).flatMap (fun x => (vars c).map (g.U x))

def faceWords {V : Type} (c : Cfg) (sd : Side) (d n : Fin 3) (g : Grid V) : List V :=
  (box (msgRng c g.nx d n (packR c sd (lo c g.nx d) (hi c g.nx d)) (packRn c sd (lo c g.nx d) (hi c g.nx d)))).map (g.Bi n)

theorem packR_in {c : Cfg} {nx : Fin 3 → Nat} {d : Fin 3} (h : Dims c nx) (hd : 1 < nx d) (sd : Side) :
    0 ≤ (packR c sd (lo c nx d) (hi c nx d)).1 ∧ (packR c sd (lo c nx d) (hi c nx d)).2 < size c nx d := by
  have := h.zones d
  have := h.ghosts
  rw [lo_pos hd, hi_pos hd, size_pos hd]
  cases sd <;> simp only [packR] <;> omega

theorem packRn_in {c : Cfg} {nx : Fin 3 → Nat} {d : Fin 3} (h : Dims c nx) (hd : 1 < nx d) (sd : Side) :
    0 ≤ (packRn c sd (lo c nx d) (hi c nx d)).1 ∧ (packRn c sd (lo c nx d) (hi c nx d)).2 < size c nx d := by
  have := h.zones d
  have := h.ghosts
  rw [lo_pos hd, hi_pos hd, size_pos hd]
  cases sd <;> simp only [packRn] <;> omega

theorem all_in {c : Cfg} {nx : Fin 3 → Nat} {d : Fin 3} {r : Rng} {p : Int × Int}
    (hr : ∀ t, t ≠ d → 0 ≤ (r t).1 ∧ (r t).2 < size c nx t) (hp : 0 ≤ p.1 ∧ p.2 < size c nx d) :
    ∀ x ∈ box (setD r d p), inB c nx x = true := by
  intro x hx
  obtain ⟨ht, h1, h2⟩ := mem_box_setD.1 (show x ∈ box (setD r d (p.1, p.2)) from hx)
  rw [inB_iff]
  intro t
  by_cases e : t = d
  · subst e; omega
  · have := ht t e; have := hr t e; omega

theorem packFace_ok {V : Type} {c : Cfg} (g : Grid V) {d : Fin 3} (h : Dims c g.nx) (hd : 1 < g.nx d) (sd : Side) (n : Fin 3) :
    packFace c sd d n g = .ok (faceWords c sd d n g) := by
  unfold packFace
  dsimp only
  rw [if_pos]
  · rfl
  · rw [List.all_eq_true]
    unfold msgRng
    by_cases e : n = d
    · rw [if_pos e]; exact all_in (fun t ht => trU_in h hd t ht) (packRn_in h hd sd)
    · rw [if_neg e]; exact all_in (fun t ht => trB_in h hd t ht) (packR_in h hd sd)

theorem pack_ok {V : Type} {c : Cfg} (g : Grid V) {d : Fin 3} (h : Dims c g.nx) (hd : 1 < g.nx d) (sd : Side) :
    pack c sd d g = .ok (cellWords c sd d g ++
      if c.mhd then faceWords c sd d 0 g ++ (faceWords c sd d 1 g ++ faceWords c sd d 2 g) else []) := by
  have hall := List.all_eq_true.2 (all_in (fun t ht => trU_in h hd (t := t) ht) (packR_in h hd sd))
  unfold pack packFaces
  dsimp only
  rw [packFace_ok g h hd sd 0, packFace_ok g h hd sd 1, packFace_ok g h hd sd 2]
  cases c.mhd
  · simp only [cond_false, Res.bind_ok, if_pos hall, Res.pure_eq_ok]; rfl
  · simp only [cond_true, Res.bind_ok, if_pos hall, Res.pure_eq_ok]; rfl

/-- The number of words packed is the message length. -/
theorem pack_length {V : Type} {c : Cfg} (g : Grid V) {d : Fin 3} (h : Dims c g.nx) (hd : 1 < g.nx d) (sd : Side) :
    (((cellWords c sd d g ++
      if c.mhd then faceWords c sd d 0 g ++ (faceWords c sd d 1 g ++ faceWords c sd d 2 g) else []).length : Nat) : Int) =
      cnt c g.nx d := by
  have hU := length_packU h d sd
  have h0 := length_packB h d hd sd 0
  have h1 := length_packB h d hd sd 1
  have h2 := length_packB h d hd sd 2
  have hcell : ((cellWords c sd d g).length : Int) = c.ng * ((if d = 0 then (g.nx 1 : Int) else g.nx 0 + 2 * c.ng) *
        (if d = 2 then (g.nx 1 : Int) + 2 * c.ng else g.nx 2)) * nvar c := by
    unfold cellWords; rw [length_cells]; push_cast; rw [hU]
  have hf : ∀ n, ((faceWords c sd d n g).length : Int) =
    ((box (msgRng c g.nx d n (packR c sd (lo c g.nx d) (hi c g.nx d)) (packRn c sd (lo c g.nx d) (hi c g.nx d)))).length : Int) := by
    intro n; unfold faceWords; rw [List.length_map]
  have hd' : d = 0 ∨ d = 1 ∨ d = 2 := by fin_cases d <;> decide
  rw [List.length_append]
  push_cast
  rw [hcell]
  unfold cnt
  cases c.mhd
  · rcases hd' with rfl | rfl | rfl <;> simp only [Fin.isValue, Fin.reduceEq, Fin.reduceLT, reduceIte, Bool.false_eq_true, List.length_nil, Nat.cast_zero, bne_iff_ne, ne_eq, cond_false, cond_true, not_true_eq_false, not_false_eq_true] <;> ring
  · have hs : ∀ l : List V, (((if true = true then l else [] : List V).length : Nat) : Int) = l.length := fun _ => rfl
    simp only [if_true, List.length_append, Nat.cast_add, hf, h0, h1, h2]
    rcases hd' with rfl | rfl | rfl <;> simp only [Fin.isValue, Fin.reduceEq, Fin.reduceLT, reduceIte, Bool.false_eq_true, List.length_nil, Nat.cast_zero, bne_iff_ne, ne_eq, cond_false, cond_true, not_true_eq_false, not_false_eq_true] <;> ring

theorem send_ok {V : Type} {c : Cfg} (g : Grid V) {d : Fin 3} (h : Dims c g.nx) (hd : 1 < g.nx d) (sd : Side) (sz : Nat)
    (hsz : cnt c g.nx d ≤ sz) :
    send c sz sd d g = .ok (cellWords c sd d g ++
      if c.mhd then faceWords c sd d 0 g ++ (faceWords c sd d 1 g ++ faceWords c sd d 2 g) else []) := by
  have hl := pack_length g h hd sd
  unfold send
  rw [pack_ok g h hd sd, Res.bind_ok]
  rw [if_pos ⟨by omega, by omega⟩, List.take_of_length_le (by omega)]

/-! ### Receiving -/

def opp : Side → Side | .inner => .outer | .outer => .inner

/-- Index in the sender minus index in the receiver. -/
def shift (sd : Side) (s e sh eh : Int) : Int := match sd with | .inner => eh + 1 - s | .outer => sh - e - 1

theorem unpR_shift (c : Cfg) (sd : Side) (s e sh eh : Int) :
    unpR c sd s e = ((packR c (opp sd) sh eh).1 + -shift sd s e sh eh, (packR c (opp sd) sh eh).2 + -shift sd s e sh eh) := by
  cases sd <;> simp only [unpR, packR, opp, shift] <;> ext <;> dsimp only <;> ring

theorem unpRn_shift (c : Cfg) (sd : Side) (s e sh eh : Int) :
    unpRn c sd s e = ((packRn c (opp sd) sh eh).1 + -shift sd s e sh eh, (packRn c (opp sd) sh eh).2 + -shift sd s e sh eh) := by
  cases sd <;> simp only [unpRn, packRn, opp, shift] <;> ext <;> dsimp only <;> ring

theorem setD_congr {α : Type} {r r' : Fin 3 → α} {d : Fin 3} (h : ∀ t, t ≠ d → r t = r' t) (p : α) : setD r d p = setD r' d p := by
  funext t
  by_cases e : t = d
  · subst e; rw [setD_self, setD_self]
  · rw [setD_ne _ _ _ _ e, setD_ne _ _ _ _ e, h t e]

theorem shift_inj (d : Fin 3) (k : Int) : ∀ x y : Idx, setD x d (x d + k) = setD y d (y d + k) → x = y := by
  intro x y e
  funext t
  have := congrFun e t
  by_cases ht : t = d
  · subst ht; rw [setD_self, setD_self] at this; omega
  · rwa [setD_ne _ _ _ _ ht, setD_ne _ _ _ _ ht] at this

theorem readFace_box {V : Type} (c : Cfg) (nx : Fin 3 → Nat) (d : Fin 3) (rg rh : Rng) (heq : ∀ t, t ≠ d → rg t = rh t)
    (p : Int × Int) (k : Int) (hr : ∀ t, t ≠ d → 0 ≤ (rg t).1 ∧ (rg t).2 < size c nx t)
    (hp : 0 ≤ p.1 + k ∧ p.2 + k < size c nx d) (w : Idx → V) (m : List V) (u : Idx → V) :
    ∃ u', readFace c nx (box (setD rg d (p.1 + k, p.2 + k))) u ((box (setD rh d p)).map w ++ m) = .ok (u', m) ∧
      ∀ y, TrIn rg d y → u' y = if p.1 + k ≤ y d ∧ y d ≤ p.2 + k then w (setD y d (y d - k)) else u y := by
  have hb := box_shift rg d p.1 p.2 k
  have hb' := all_in (d := d) (p := (p.1 + k, p.2 + k)) hr hp
  rw [hb] at hb' ⊢
  rw [← setD_congr heq]
  obtain ⟨u', e, h1, h2⟩ := readFace_ok c nx (fun x => setD x d (x d + k)) w m (shift_inj d k) (box (setD rg d (p.1, p.2))) u
    (fun x hx => hb' _ (List.mem_map_of_mem hx))
  refine ⟨u', e, fun y hy => ?_⟩
  by_cases hc : p.1 + k ≤ y d ∧ y d ≤ p.2 + k
  · rw [if_pos hc]
    have := h1 (setD y d (y d - k)) (by rw [mem_box_setD, trIn_setD, setD_self]; exact ⟨hy, by omega, by omega⟩)
    rw [setD_self, setD_setD, show y d - k + k = y d by omega, setD_eta] at this
    exact this
  · rw [if_neg hc]
    apply h2
    intro x hx e
    apply hc
    obtain ⟨_, ha, hb⟩ := mem_box_setD.1 hx
    rw [← e, setD_self]; omega

theorem readCells_box {V : Type} (c : Cfg) (nx : Fin 3 → Nat) (d : Fin 3) (rg rh : Rng) (heq : ∀ t, t ≠ d → rg t = rh t)
    (p : Int × Int) (k : Int) (hr : ∀ t, t ≠ d → 0 ≤ (rg t).1 ∧ (rg t).2 < size c nx t)
    (hp : 0 ≤ p.1 + k ∧ p.2 + k < size c nx d) (w : Idx → Var → V) (m : List V) (u : Idx → Var → V) :
    ∃ u', readCells c nx (box (setD rg d (p.1 + k, p.2 + k))) u
        ((box (setD rh d p)).flatMap (fun x => (vars c).map (w x)) ++ m) = .ok (u', m) ∧
      ∀ y, TrIn rg d y → ∀ v ∈ vars c, u' y v = if p.1 + k ≤ y d ∧ y d ≤ p.2 + k then w (setD y d (y d - k)) v else u y v := by
  have hb := box_shift rg d p.1 p.2 k
  have hb' := all_in (d := d) (p := (p.1 + k, p.2 + k)) hr hp
  rw [hb] at hb' ⊢
  rw [← setD_congr heq]
  obtain ⟨u', e, h1, h2⟩ := readCells_ok c nx (fun x => setD x d (x d + k)) w m (shift_inj d k) (box (setD rg d (p.1, p.2))) u
    (fun x hx => hb' _ (List.mem_map_of_mem hx))
  refine ⟨u', e, fun y hy v hv => ?_⟩
  by_cases hc : p.1 + k ≤ y d ∧ y d ≤ p.2 + k
  · rw [if_pos hc]
    have := h1 (setD y d (y d - k)) (by rw [mem_box_setD, trIn_setD, setD_self]; exact ⟨hy, by omega, by omega⟩) v hv
    rw [setD_self, setD_setD, show y d - k + k = y d by omega, setD_eta] at this
    exact this
  · rw [if_neg hc]
    rw [h2]
    intro x hx e
    apply hc
    obtain ⟨_, ha, hb⟩ := mem_box_setD.1 hx
    rw [← e, setD_self]; omega

/-- Sizes of a Grid and its neighbour in direction `d` differ in direction `d` only. -/
def SameTr (d : Fin 3) (nx nx' : Fin 3 → Nat) : Prop := ∀ t, t ≠ d → nx t = nx' t

theorem lo_congr {c : Cfg} {nx nx' : Fin 3 → Nat} {t : Fin 3} (h : nx t = nx' t) : lo c nx t = lo c nx' t := by unfold lo; rw [h]
theorem hi_congr {c : Cfg} {nx nx' : Fin 3 → Nat} {t : Fin 3} (h : nx t = nx' t) : hi c nx t = hi c nx' t := by unfold hi; rw [h]

theorem trU_congr {c : Cfg} {nx nx' : Fin 3 → Nat} {d : Fin 3} (h : SameTr d nx nx') :
    ∀ t, t ≠ d → trU c nx d t = trU c nx' d t := by
  intro t ht
  unfold trU
  rw [lo_congr (h t ht), hi_congr (h t ht)]

theorem trB_congr {c : Cfg} {nx nx' : Fin 3 → Nat} {d n : Fin 3} (h : SameTr d nx nx') :
    ∀ t, t ≠ d → trB c nx d n t = trB c nx' d n t := by
  intro t ht
  unfold trB
  by_cases e : t = n
  · subst e
    rw [if_pos rfl, if_pos rfl, lo_congr (h t ht), hi_congr (h t ht), h t ht]
  · rw [if_neg e, if_neg e, trU_congr h t ht]

theorem cnt_congr {c : Cfg} {nx nx' : Fin 3 → Nat} {d : Fin 3} (h : SameTr d nx nx') : cnt c nx d = cnt c nx' d := by
  have hd' : d = 0 ∨ d = 1 ∨ d = 2 := by fin_cases d <;> decide
  unfold cnt
  rcases hd' with rfl | rfl | rfl
  · rw [h 1 (by decide), h 2 (by decide)]; simp
  · rw [h 0 (by decide), h 2 (by decide)]; simp
  · rw [h 0 (by decide), h 1 (by decide)]; simp

theorem unpR_in {c : Cfg} {nx : Fin 3 → Nat} {d : Fin 3} (h : Dims c nx) (hd : 1 < nx d) (sd : Side) :
    0 ≤ (unpR c sd (lo c nx d) (hi c nx d)).1 ∧ (unpR c sd (lo c nx d) (hi c nx d)).2 < size c nx d := by
  have := h.zones d
  have := h.ghosts
  rw [lo_pos hd, hi_pos hd, size_pos hd]
  cases sd <;> simp only [unpR] <;> omega

theorem unpRn_in {c : Cfg} {nx : Fin 3 → Nat} {d : Fin 3} (h : Dims c nx) (hd : 1 < nx d) (sd : Side) :
    0 ≤ (unpRn c sd (lo c nx d) (hi c nx d)).1 ∧ (unpRn c sd (lo c nx d) (hi c nx d)).2 < size c nx d := by
  have := h.zones d
  have := h.ghosts
  rw [lo_pos hd, hi_pos hd, size_pos hd]
  cases sd <;> simp only [unpRn] <;> omega

/-- Where the receiver stores what. -/
structure Delivered {V : Type} (c : Cfg) (sd : Side) (d : Fin 3) (g h g' : Grid V) : Prop where
  nx : g'.nx = g.nx
  cells : ∀ y, TrIn (trU c g.nx d) d y → ∀ v ∈ vars c, g'.U y v =
    if 1 ≤ depth sd (lo c g.nx d) (hi c g.nx d) (y d) ∧ depth sd (lo c g.nx d) (hi c g.nx d) (y d) ≤ c.ng then
      h.U (setD y d (y d + shift sd (lo c g.nx d) (hi c g.nx d) (lo c h.nx d) (hi c h.nx d))) v else g.U y v
  trans : c.mhd = true → ∀ n, n ≠ d → ∀ y, TrIn (trB c g.nx d n) d y → g'.Bi n y =
    if 1 ≤ depth sd (lo c g.nx d) (hi c g.nx d) (y d) ∧ depth sd (lo c g.nx d) (hi c g.nx d) (y d) ≤ c.ng then
      h.Bi n (setD y d (y d + shift sd (lo c g.nx d) (hi c g.nx d) (lo c h.nx d) (hi c h.nx d))) else g.Bi n y
  normal : c.mhd = true → ∀ y, TrIn (trU c g.nx d) d y → g'.Bi d y =
    if 1 ≤ fdepth sd (lo c g.nx d) (hi c g.nx d) (y d) ∧ fdepth sd (lo c g.nx d) (hi c g.nx d) (y d) ≤ c.ng - 1 then
      h.Bi d (setD y d (y d + shift sd (lo c g.nx d) (hi c g.nx d) (lo c h.nx d) (hi c h.nx d))) else g.Bi d y

theorem unpR_depth (c : Cfg) (sd : Side) (s e j : Int) :
    ((unpR c sd s e).1 ≤ j ∧ j ≤ (unpR c sd s e).2) ↔ (1 ≤ depth sd s e j ∧ depth sd s e j ≤ c.ng) := by
  cases sd <;> simp only [unpR, depth] <;> omega

theorem unpRn_depth (c : Cfg) (sd : Side) (s e j : Int) :
    ((unpRn c sd s e).1 ≤ j ∧ j ≤ (unpRn c sd s e).2) ↔ (1 ≤ fdepth sd s e j ∧ fdepth sd s e j ≤ c.ng - 1) := by
  cases sd <;> simp only [unpRn, fdepth] <;> omega

theorem readFace_msg {V : Type} {c : Cfg} (h : Grid V) (nx : Fin 3 → Nat) {d : Fin 3} (hg : Dims c nx) (hd : 1 < nx d)
    (hs : SameTr d nx h.nx) (sd : Side) (n : Fin 3) (b : Idx → V) (m : List V) :
    ∃ b', readFace c nx (box (msgRng c nx d n (unpR c sd (lo c nx d) (hi c nx d)) (unpRn c sd (lo c nx d) (hi c nx d)))) b
        (faceWords c (opp sd) d n h ++ m) = .ok (b', m) ∧
      (n ≠ d → ∀ y, TrIn (trB c nx d n) d y → b' y =
        if 1 ≤ depth sd (lo c nx d) (hi c nx d) (y d) ∧ depth sd (lo c nx d) (hi c nx d) (y d) ≤ c.ng then
          h.Bi n (setD y d (y d + shift sd (lo c nx d) (hi c nx d) (lo c h.nx d) (hi c h.nx d))) else b y) ∧
      (n = d → ∀ y, TrIn (trU c nx d) d y → b' y =
        if 1 ≤ fdepth sd (lo c nx d) (hi c nx d) (y d) ∧ fdepth sd (lo c nx d) (hi c nx d) (y d) ≤ c.ng - 1 then
          h.Bi n (setD y d (y d + shift sd (lo c nx d) (hi c nx d) (lo c h.nx d) (hi c h.nx d))) else b y) := by
  have e1 := unpR_shift c sd (lo c nx d) (hi c nx d) (lo c h.nx d) (hi c h.nx d)
  have e2 := unpRn_shift c sd (lo c nx d) (hi c nx d) (lo c h.nx d) (hi c h.nx d)
  unfold faceWords msgRng
  by_cases en : n = d
  · rw [if_pos en, if_pos en]
    have hin := unpRn_in hg hd sd
    rw [e2] at hin
    obtain ⟨b', e, hb⟩ := readFace_box c nx d (trU c nx d) (trU c h.nx d) (trU_congr hs)
      (packRn c (opp sd) (lo c h.nx d) (hi c h.nx d)) _ (fun t ht => trU_in hg hd t ht) hin (h.Bi n) m b
    rw [← e2] at e
    refine ⟨b', e, fun hne => absurd en hne, fun _ y hy => ?_⟩
    rw [hb y hy]
    have hiff := unpRn_depth c sd (lo c nx d) (hi c nx d) (y d)
    rw [e2] at hiff
    rw [if_congr hiff (by rw [sub_neg_eq_add]) rfl]
  · rw [if_neg en, if_neg en]
    have hin := unpR_in hg hd sd
    rw [e1] at hin
    obtain ⟨b', e, hb⟩ := readFace_box c nx d (trB c nx d n) (trB c h.nx d n) (trB_congr hs)
      (packR c (opp sd) (lo c h.nx d) (hi c h.nx d)) _ (fun t ht => trB_in hg hd t ht) hin (h.Bi n) m b
    rw [← e1] at e
    refine ⟨b', e, fun _ y hy => ?_, fun he => absurd he en⟩
    rw [hb y hy]
    have hiff := unpR_depth c sd (lo c nx d) (hi c nx d) (y d)
    rw [e1] at hiff
    rw [if_congr hiff (by rw [sub_neg_eq_add]) rfl]

/-- Sending from `h` and receiving in `g` copies `h`'s zones next to the common boundary. -/
theorem exchange {V : Type} {c : Cfg} (g h : Grid V) {d : Fin 3} (hg : Dims c g.nx) (hh : Dims c h.nx)
    (hd : 1 < g.nx d) (hd' : 1 < h.nx d) (hs : SameTr d g.nx h.nx) (sd : Side) (sz : Nat) (hsz : cnt c g.nx d ≤ sz) :
    ∃ m g', send c sz (opp sd) d h = .ok m ∧ recv c sz sd d m g = .ok g' ∧ Delivered c sd d g h g' ∧
      unpack c sd d g m = .ok (g', []) ∧ pack c (opp sd) d h = .ok m ∧ (m.length : Int) = cnt c h.nx d := by
  have hcnt : cnt c h.nx d = cnt c g.nx d := (cnt_congr hs).symm
  have hsend := send_ok h hh hd' (opp sd) sz (by omega)
  have hlen := pack_length h hh hd' (opp sd)
  have e1 := unpR_shift c sd (lo c g.nx d) (hi c g.nx d) (lo c h.nx d) (hi c h.nx d)
  have hin := unpR_in hg hd sd
  rw [e1] at hin
  obtain ⟨u', eu, hu⟩ := readCells_box c g.nx d (trU c g.nx d) (trU c h.nx d) (trU_congr hs)
    (packR c (opp sd) (lo c h.nx d) (hi c h.nx d)) _ (fun t ht => trU_in hg hd t ht) hin h.U
    (if c.mhd then faceWords c (opp sd) d 0 h ++ (faceWords c (opp sd) d 1 h ++ faceWords c (opp sd) d 2 h) else []) g.U
  rw [← e1] at eu
  have hcells : ∀ y, TrIn (trU c g.nx d) d y → ∀ v ∈ vars c, u' y v =
      if 1 ≤ depth sd (lo c g.nx d) (hi c g.nx d) (y d) ∧ depth sd (lo c g.nx d) (hi c g.nx d) (y d) ≤ c.ng then
        h.U (setD y d (y d + shift sd (lo c g.nx d) (hi c g.nx d) (lo c h.nx d) (hi c h.nx d))) v else g.U y v := by
    intro y hy v hv
    rw [hu y hy v hv]
    have hiff := unpR_depth c sd (lo c g.nx d) (hi c g.nx d) (y d)
    rw [e1] at hiff
    rw [if_congr hiff (by rw [sub_neg_eq_add]) rfl]
  have hrecv : ∀ (m : List V) (g' : Grid V), (m.length : Int) = cnt c h.nx d → unpack c sd d g m = .ok (g', []) →
      recv c sz sd d m g = .ok g' := by
    intro m r hm hr
    unfold recv
    rw [if_neg (by omega), if_neg (by omega), hr]
    rfl
  by_cases hm : c.mhd = true
  · obtain ⟨b0, f0, t0, n0⟩ := readFace_msg h g.nx hg hd hs sd 0 (g.Bi 0) (faceWords c (opp sd) d 1 h ++ faceWords c (opp sd) d 2 h)
    obtain ⟨b1, f1, t1, n1⟩ := readFace_msg h g.nx hg hd hs sd 1 (g.Bi 1) (faceWords c (opp sd) d 2 h)
    obtain ⟨b2, f2, t2, n2⟩ := readFace_msg h g.nx hg hd hs sd 2 (g.Bi 2) []
    rw [List.append_nil] at f2
    have hu : unpack c sd d g (cellWords c (opp sd) d h ++ if c.mhd then faceWords c (opp sd) d 0 h ++ (faceWords c (opp sd) d 1 h ++ faceWords c (opp sd) d 2 h) else []) =
        .ok (⟨g.nx, u', fun n => if n = 0 then b0 else if n = 1 then b1 else b2⟩, []) := by
      unfold unpack unpackFaces
      have eu' : readCells c g.nx (box (setD (trU c g.nx d) d (unpR c sd (lo c g.nx d) (hi c g.nx d)))) g.U
        (cellWords c (opp sd) d h ++ if c.mhd then faceWords c (opp sd) d 0 h ++ (faceWords c (opp sd) d 1 h ++ faceWords c (opp sd) d 2 h) else []) = _ := eu
      rw [eu', Res.bind_ok, hm]
      dsimp only
      rw [if_pos rfl, f0, Res.bind_ok, f1, Res.bind_ok, f2]
      rfl
    refine ⟨_, ⟨g.nx, u', fun n => if n = 0 then b0 else if n = 1 then b1 else b2⟩, hsend, hrecv _ _ hlen hu, ?_, hu, pack_ok h hh hd' (opp sd), hlen⟩
    · refine ⟨rfl, hcells, fun _ n hn y hy => ?_, fun _ y hy => ?_⟩
      · have : n = 0 ∨ n = 1 ∨ n = 2 := by fin_cases n <;> decide
        rcases this with rfl | rfl | rfl
        · exact t0 hn y hy
        · exact t1 hn y hy
        · exact t2 hn y hy
      · have : d = 0 ∨ d = 1 ∨ d = 2 := by fin_cases d <;> decide
        rcases this with rfl | rfl | rfl
        · exact n0 rfl y hy
        · exact n1 rfl y hy
        · exact n2 rfl y hy
  · have hm' : c.mhd = false := by simpa using hm
    have hu : unpack c sd d g (cellWords c (opp sd) d h ++ if c.mhd then faceWords c (opp sd) d 0 h ++ (faceWords c (opp sd) d 1 h ++ faceWords c (opp sd) d 2 h) else []) =
        .ok (⟨g.nx, u', g.Bi⟩, []) := by
      unfold unpack
      have eu' : readCells c g.nx (box (setD (trU c g.nx d) d (unpR c sd (lo c g.nx d) (hi c g.nx d)))) g.U
          (cellWords c (opp sd) d h ++ if c.mhd then faceWords c (opp sd) d 0 h ++ (faceWords c (opp sd) d 1 h ++ faceWords c (opp sd) d 2 h) else []) = _ := eu
      rw [eu', Res.bind_ok, hm']
      rfl
    exact ⟨_, ⟨g.nx, u', g.Bi⟩, hsend, hrecv _ _ hlen hu, ⟨rfl, hcells, fun h => absurd h hm, fun h => absurd h hm⟩, hu, pack_ok h hh hd' (opp sd), hlen⟩

end Athena.Bvals
