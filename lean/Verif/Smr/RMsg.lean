import Verif.Smr.RSpec

/-!
# The message sent by a child, in the order in which the parent reads it
-/

namespace Athena.Smr

variable {R : Type*} [Field R] {nf : Nat}

open Child (normal)

theorem six (d : Fin 6) : d = 0 ∨ d = 1 ∨ d = 2 ∨ d = 3 ∨ d = 4 ∨ d = 5 := by omega

theorem normal_cases (d : Fin 6) : (normal d = 0 ∧ (d = 0 ∨ d = 1)) ∨ (normal d = 1 ∧ (d = 2 ∨ d = 3)) ∨
    (normal d = 2 ∧ (d = 4 ∨ d = 5)) := by
  rcases six d with rfl | rfl | rfl | rfl | rfl | rfl <;> decide

/-- Transverse ranges: sender and receiver. -/
theorem trans_cov {c : Child R nf} {p : Parent R nf} (h : Match c p) (m : Fin 3) :
    rng2 0 (c.trans m).1 = (rng (p.tb m).1.1 (p.tb m).1.2).map (fun i => 2*(i - (p.tb m).1.1)) ∧
    rng2 0 (c.trans m).2 = (rng (p.tb m).2.1 (p.tb m).2.2).map (fun i => 2*(i - (p.tb m).2.1)) := by
  unfold Child.trans Parent.tb
  rcases (by omega : m = 0 ∨ m = 1 ∨ m = 2) with rfl | rfl | rfl
  · exact ⟨rng2_zero h.c3, rng2_zero h.c2⟩
  · exact ⟨rng2_zero h.c3, rng2_zero h.c1⟩
  · exact ⟨rng2_zero h.c2, rng2_zero h.c1⟩

theorem nFlx_eq {c : Child R nf} {p : Parent R nf} (h : Match c p) (d : Fin 6) (hd : d.val < 2 * p.nDim) :
    c.nFlx d = ((faceZ p (normal d) ×ˢ p.vs).length : ℤ) := by
  have d1 := h.dim1
  have d3 := h.dim3
  have e1 := h.x1
  have hl : ((faceZ p (normal d) ×ˢ p.vs).length : ℤ) =
      ((p.tb (normal d)).1.2 + 1 - (p.tb (normal d)).1.1).toNat *
      ((p.tb (normal d)).2.2 + 1 - (p.tb (normal d)).2.1).toNat * (p.vs.length : ℤ) := by
    rw [length_product', faceZ, length_product', length_rng, length_rng]
    push_cast; ring
  have q4 : ∀ a b : ℤ, 2*a*(2*b)/4 = a*b := fun a b => by
    rw [show 2*a*(2*b) = (a*b)*4 by ring, Int.mul_ediv_cancel _ (by decide)]
  have q2 : ∀ a : ℤ, 2*a/2 = a := fun a => by omega
  rw [hl, Child.nFlx, h.vs, h.dim]
  rcases normal_cases d with ⟨hn, hd'⟩ | ⟨hn, hd'⟩ | ⟨hn, hd'⟩
  · simp only [hn, Child.trans, Parent.tb, if_true, true_and]
    rw [if_neg (by decide)]
    rcases (by omega : p.nDim = 1 ∨ p.nDim = 2 ∨ p.nDim = 3) with hD | hD | hD
    · have e2 := h.x2' (by omega)
      have e3 := h.x3' (by omega)
      rw [if_pos hD, show ((p.box.je + 1 - p.box.js).toNat : ℤ) = 1 by omega,
        show ((p.box.ke + 1 - p.box.ks).toNat : ℤ) = 1 by omega]
      ring
    · have e2 := h.x2 (by omega)
      have e3 := h.x3' (by omega)
      rw [if_neg (by omega), if_neg (by omega), show ((p.box.je + 1 - p.box.js).toNat : ℤ) = p.box.je - p.box.js + 1 by omega,
        show ((p.box.ke + 1 - p.box.ks).toNat : ℤ) = 1 by omega, e2.1, q2]
      ring
    · have e2 := h.x2 (by omega)
      have e3 := h.x3 (by omega)
      rw [if_neg (by omega), if_pos hD, show ((p.box.je + 1 - p.box.js).toNat : ℤ) = p.box.je - p.box.js + 1 by omega,
        show ((p.box.ke + 1 - p.box.ks).toNat : ℤ) = p.box.ke - p.box.ks + 1 by omega, e2.1, e3.1, q4]
  · simp only [hn, Child.trans, Parent.tb, show (1 : Fin 3) ≠ 0 by decide, if_true, if_false, false_and]
    rw [if_neg (by decide)]
    rcases (by omega : p.nDim = 2 ∨ p.nDim = 3) with hD | hD
    · have e3 := h.x3' (by omega)
      rw [if_neg (by omega), show ((p.box.ie + 1 - p.box.is).toNat : ℤ) = p.box.ie - p.box.is + 1 by omega,
        show ((p.box.ke + 1 - p.box.ks).toNat : ℤ) = 1 by omega, e1.1, q2]
      ring
    · have e3 := h.x3 (by omega)
      rw [if_pos hD, show ((p.box.ie + 1 - p.box.is).toNat : ℤ) = p.box.ie - p.box.is + 1 by omega,
        show ((p.box.ke + 1 - p.box.ks).toNat : ℤ) = p.box.ke - p.box.ks + 1 by omega, e1.1, e3.1, q4]
  · have hD : p.nDim = 3 := by
      have : d.val = 4 ∨ d.val = 5 := by rcases hd' with h | h <;> rw [h] <;> decide
      omega
    have e2 := h.x2 (by omega)
    simp only [hn, Child.trans, Parent.tb, show (2 : Fin 3) ≠ 0 by decide, show (2 : Fin 3) ≠ 1 by decide,
      if_true, if_false]
    rw [show ((p.box.ie + 1 - p.box.is).toNat : ℤ) = p.box.ie - p.box.is + 1 by omega,
      show ((p.box.je + 1 - p.box.js).toNat : ℤ) = p.box.je - p.box.js + 1 by omega, e1.1, e2.1, q4]

/-- The words for the fluxes at one boundary. -/
theorem fluxWords_eq {c : Child R nf} {p : Parent R nf} (h : Match c p) (d : Fin 6) (hd : d.val < 2 * p.nDim)
    (F : ℤ → ℤ → Var nf → R) :
    c.fluxWords d F = some ((faceZ p (normal d) ×ˢ p.vs).map (flxW p (normal d) F)) := by
  have d1 := h.dim1
  have d3 := h.dim3
  unfold Child.fluxWords
  rw [h.dim]
  by_cases h1 : normal d = 0 ∧ p.nDim = 1
  · rw [if_pos h1]
    have e2 := h.x2' (by omega)
    have e3 := h.x3' (by omega)
    congr 1
    rw [h.vs, faceZ, Parent.tb, if_pos h1.1]
    dsimp only
    rw [e2.2.2, e3.2.2, rng_single, rng_single, show ([p.box.ke] ×ˢ [p.box.je] : List (ℤ × ℤ)) = [(p.box.ke, p.box.je)] from rfl,
      List.product_cons, List.nil_product, List.append_nil, List.map_map]
    apply List.map_congr_left
    intro v _
    simp only [Function.comp, flxW, coveredFace, Parent.tb, h1.1, if_true, offs, h1.2]
    simp [avg, e2, e3, List.product_cons]
  · rw [if_neg h1]
    dsimp only
    rw [(trans_cov h _).1, (trans_cov h _).2, map_product, map_product_left, h.vs]
    rw [show rng (p.tb (normal d)).1.1 (p.tb (normal d)).1.2 ×ˢ rng (p.tb (normal d)).2.1 (p.tb (normal d)).2.2
      = faceZ p (normal d) from rfl]
    simp only [List.map_map, zipWith_map_map]
    by_cases h2 : normal d = 2 ∨ p.nDim = 3
    · rw [if_pos h2, if_pos h2, scale_map _ _ _ _ (nFlx_eq h d hd)]
      congr 1
      apply List.map_congr_left
      intro x _
      have o1 : (if normal d = 2 then true else decide (3 ≤ p.nDim)) = true := by
        rcases h2 with h2 | h2
        · rw [if_pos h2]
        · split_ifs <;> simp [h2]
      have o2 : (if normal d = 0 then decide (2 ≤ p.nDim) else true) = true := by
        split_ifs with h3
        · rcases h2 with h2 | h2
          · rw [h2] at h3; exact absurd h3 (by decide)
          · simp [h2]
        · rfl
      simp only [flxW, coveredFace, o1, o2, avg, offs, if_true, Function.comp, Prod.map]
      simp [List.product_cons]
      ring
    · rw [if_neg h2, if_neg h2, scale_map _ _ _ _ (nFlx_eq h d hd)]
      rw [not_or] at h2
      congr 1
      apply List.map_congr_left
      rintro ⟨⟨a, b⟩, v⟩ hx
      have o1 : (if normal d = 2 then true else decide (3 ≤ p.nDim)) = false := by
        rw [if_neg h2.1]; simp; omega
      have o2 : (if normal d = 0 then decide (2 ≤ p.nDim) else true) = true := by
        split_ifs with h3
        · simp; omega
        · rfl
      simp only [flxW, coveredFace, o1, o2, avg, offs, if_true, Function.comp, Prod.map]
      simp [List.product_cons]
      ring

/-- The words of Step 3c. -/
def flxWs (c : Child R nf) (p : Parent R nf) (ds : List (Fin 6)) : List R :=
  ds.flatMap fun d => match c.flx d with
    | none => []
    | some F => (faceZ p (normal d) ×ˢ p.vs).map (flxW p (normal d) F)

theorem seek_length (b : List R) : seek (b.length : ℤ) b = some b := by
  unfold seek
  rw [if_pos (by simp)]
  simp

theorem sendFlx_eq {c : Child R nf} {p : Parent R nf} (h : Match c p) (ds : List (Fin 6)) (b : List R) :
    c.sendFlx (b, (b.length : ℤ)) ds = some (b ++ flxWs c p ds, ((b ++ flxWs c p ds).length : ℤ)) := by
  induction ds generalizing b with
  | nil => simp [Child.sendFlx, flxWs]
  | cons d ds ih =>
    unfold Child.sendFlx
    cases hF : c.flx d with
    | none =>
      dsimp only
      rw [ih b]
      simp [flxWs, hF]
    | some F =>
      dsimp only
      have hd : d.val < 2 * p.nDim := h.sideDim d (by rw [← h.side d, hF]; rfl)
      rw [seek_length, Option.bind_some, fluxWords_eq h d hd F, Option.bind_some, nFlx_eq h d hd]
      rw [show ((b.length : ℤ) + ((faceZ p (normal d) ×ˢ p.vs).length : ℤ)) =
        ((b ++ (faceZ p (normal d) ×ˢ p.vs).map (flxW p (normal d) F)).length : ℤ) by simp, ih]
      simp [flxWs, hF]

/-! ## Reading on the other side -/

theorem injectU_eq {c : Child R nf} {p : Parent R nf} (s : PState R nf) (rest : List R) :
    p.injectU (s, (p.zones ×ˢ p.vs).map (consW c p) ++ rest) =
      some ({ s with U := fun x => if x ∈ p.zones ×ˢ p.vs then consW c p x else s.U x }, rest) := by
  unfold Parent.injectU
  rw [pops_map]
  congr 2
  have : ∀ (l : List (Z3 × Var nf)) (s : PState R nf),
      l.foldl (fun s x => s.setU x.1 x.2 (consW c p x)) s =
        { s with U := fun x => if x ∈ l then consW c p x else s.U x } := by
    intro l s
    have : l.foldl (fun s x => s.setU x.1 x.2 (consW c p x)) s =
        { s with U := l.foldl (fun a i => upd a i (consW c p i)) s.U } := by
      induction l generalizing s with
      | nil => rfl
      | cons a l ih => rw [List.foldl_cons, ih, List.foldl_cons]; rfl
    rw [this]
    congr 1
    funext x
    rw [foldl_set]
    congr
  exact this _ s

/-- What the flux correction at boundary `d` adds to variable `v` of zone `z`. -/
def fluxDelta (p : Parent R nf) (d : Fin 6) (F G : ℤ → ℤ → Var nf → R) (x : (ℤ × ℤ) × Var nf) : R :=
  -(p.q d * (F (x.1.1 - (p.tb (normal d)).1.1) (x.1.2 - (p.tb (normal d)).2.1) x.2 - flxW p (normal d) G x))

theorem outside_inj (p : Parent R nf) (d : Fin 6) : Function.Injective (p.outside d) := by
  rintro ⟨a, b⟩ ⟨a', b'⟩ h
  rcases six d with rfl | rfl | rfl | rfl | rfl | rfl <;>
    simp only [Parent.outside, Fin.isValue, Fin.reduceEq, if_true, if_false, Prod.mk.injEq] at h ⊢ <;> tauto

theorem nodup_faceZ (p : Parent R nf) (m : Fin 3) : (faceZ p m).Nodup :=
  (nodup_rng _ _).product (nodup_rng _ _)

theorem nodup_out (p : Parent R nf) (hv : p.vs.Nodup) (d : Fin 6) :
    ((faceZ p (normal d) ×ˢ p.vs).map fun x => (p.outside d x.1, x.2)).Nodup := by
  refine List.Nodup.map ?_ ((nodup_faceZ p _).product hv)
  rintro ⟨a, v⟩ ⟨b, w⟩ h
  simp only [Prod.mk.injEq] at h
  exact Prod.ext (outside_inj p d h.1) h.2

theorem fluxCorr_eq {p : Parent R nf} (d : Fin 6) (F G : ℤ → ℤ → Var nf → R) (hF : p.flx d = some F)
    (s : PState R nf) (rest : List R) :
    p.fluxCorr d (s, (faceZ p (normal d) ×ˢ p.vs).map (flxW p (normal d) G) ++ rest) =
      some ({ s with U := (faceZ p (normal d) ×ˢ p.vs).foldl (fun a x =>
        upd a (p.outside d x.1, x.2) (a (p.outside d x.1, x.2) + fluxDelta p d F G x)) s.U }, rest) := by
  unfold Parent.fluxCorr
  rw [hF]
  dsimp only
  rw [show rng (p.tb (normal d)).1.1 (p.tb (normal d)).1.2 ×ˢ rng (p.tb (normal d)).2.1 (p.tb (normal d)).2.2
    = faceZ p (normal d) from rfl]
  rw [pops_map]
  congr 2
  generalize faceZ p (normal d) ×ˢ p.vs = l
  induction l generalizing s with
  | nil => rfl
  | cons a l ih =>
    rw [List.foldl_cons, ih, List.foldl_cons]
    simp only [PState.setU, fluxDelta, sub_eq_add_neg]

/-- Sum of the corrections of one boundary at `(z,v)`. -/
def corrAt (c : Child R nf) (p : Parent R nf) (d : Fin 6) (y : Z3 × Var nf) : R :=
  match p.flx d, c.flx d with
  | some F, some G => (((faceZ p (normal d) ×ˢ p.vs).filter fun x => (p.outside d x.1, x.2) = y).map
      (fluxDelta p d F G)).sum
  | _, _ => 0

theorem foldl_add_filter {ι β : Type*} [DecidableEq ι] (l : List β) (g : β → ι) (f : β → R) (a : ι → R) (y : ι) :
    l.foldl (fun a x => upd a (g x) (a (g x) + f x)) a y =
      a y + ((l.filter fun x => g x = y).map f).sum := by
  induction l generalizing a with
  | nil => simp
  | cons b l ih =>
    rw [List.foldl_cons, ih]
    by_cases h : g b = y
    · rw [List.filter_cons_of_pos (by simpa using h), upd, if_pos h.symm, h]
      simp [add_assoc]
    · rw [List.filter_cons_of_neg (by simpa using h), upd, if_neg (fun e => h e.symm)]

theorem fluxCorrs_eq {c : Child R nf} {p : Parent R nf} (h : Match c p) (ds : List (Fin 6)) (s : PState R nf)
    (rest : List R) :
    seqs (ds.map p.fluxCorr) (s, flxWs c p ds ++ rest) =
      some ({ s with U := fun y => s.U y + (ds.map fun d => corrAt c p d y).sum }, rest) := by
  induction ds generalizing s with
  | nil => simp [seqs, flxWs]
  | cons d ds ih =>
    rw [List.map_cons, seqs]
    have hs := h.side d
    cases hF : p.flx d with
    | none =>
      cases hG : c.flx d with
      | some G => simp [hF, hG] at hs
      | none =>
        have : flxWs c p (d :: ds) = flxWs c p ds := by simp [flxWs, hG]
        rw [this, Parent.fluxCorr, hF]
        dsimp only
        rw [Option.bind_some, ih]
        simp [corrAt, hF]
    | some F =>
      cases hG : c.flx d with
      | none => simp [hF, hG] at hs
      | some G =>
        have : flxWs c p (d :: ds) = (faceZ p (normal d) ×ˢ p.vs).map (flxW p (normal d) G) ++ flxWs c p ds := by
          simp [flxWs, hG]
        rw [this, List.append_assoc, fluxCorr_eq d F G hF, Option.bind_some, ih]
        congr 2
        congr 1
        funext y
        dsimp only
        rw [foldl_add_filter]
        simp [corrAt, hF, hG, add_assoc]

/-- Whole exchange without magnetic field: what the parent holds afterwards. -/
theorem unpack_hydro {c : Child R nf} {p : Parent R nf} (h : Match c p) (hm : p.mhd = false) (s : PState R nf) :
    ∃ w, c.send = some w ∧ p.unpack (s, w) =
      some ({ s with U := fun y => (if y ∈ p.zones ×ˢ p.vs then consW c p y else s.U y) +
        (Child.dims.map fun d => corrAt c p d y).sum }, []) := by
  refine ⟨(p.zones ×ˢ p.vs).map (consW c p) ++ flxWs c p Child.dims, ?_, ?_⟩
  · unfold Child.send
    rw [sendCons_eq h, Option.bind_some, h.mhd, hm]
    simp only [Bool.false_eq_true, if_false]
    rw [nCons_eq h, show ((p.zones ×ˢ p.vs).length : ℤ) = (((p.zones ×ˢ p.vs).map (consW c p)).length : ℤ) by simp,
      sendFlx_eq h, Option.bind_some]
  · unfold Parent.unpack
    rw [hm]
    simp only [Bool.false_eq_true, if_false, seqs]
    rw [injectU_eq, Option.bind_some, Option.bind_some]
    conv_lhs => rw [← List.append_nil (flxWs c p Child.dims)]
    rw [fluxCorrs_eq h, Option.bind_some, Option.bind_some]

end Athena.Smr
