import Verif.Smr.REmfC3

/-!
# The whole exchange with magnetic field
-/

namespace Athena.Smr

variable {R : Type*} [Field R] {nf : Nat}

open Child (normal)

/-- The difference of the EMFs in direction `e` on the boundary `d`, if they are stored. -/
def dO (c : Child R nf) (p : Parent R nf) (e : Fin 3) (d : Fin 6) : ℤ × ℤ → R :=
  match p.emf e d, c.emf e d with
  | some E, some G => dE p (normal d) e E G
  | _, _ => fun _ => 0

/-- What the EMF correction on boundary `d` adds to the face field. -/
def emfAt (c : Child R nf) (p : Parent R nf) (d : Fin 6) (n : Fin 3) (z : Z3) : R :=
  if normal d = 0 then (if (p.emf3 d).isSome then D1 p d (dO c p 2 d) (dO c p 1 d) n z else 0)
  else if normal d = 1 then (if (p.emf3 d).isSome then D2 p d (dO c p 2 d) (dO c p 0 d) n z else 0)
  else (if (p.emf1 d).isSome then D3 p d (dO c p 0 d) (dO c p 1 d) n z else 0)

/-- The correction on boundary `d`. -/
def corrOf (p : Parent R nf) (d : Fin 6) : Parent.Prog R nf :=
  if normal d = 0 then p.emfCorr1 d else if normal d = 1 then p.emfCorr2 d else p.emfCorr3 d

theorem D1_congr (p : Parent R nf) (d : Fin 6) (δ3 a b : ℤ × ℤ → R) (h : p.nDim = 3 → a = b) (n : Fin 3) (z : Z3) :
    D1 p d δ3 a n z = D1 p d δ3 b n z := by
  by_cases hD : p.nDim = 3
  · rw [h hD]
  · simp [D1, hD]

theorem D2_congr (p : Parent R nf) (d : Fin 6) (δ3 a b : ℤ × ℤ → R) (h : p.nDim = 3 → a = b) (n : Fin 3) (z : Z3) :
    D2 p d δ3 a n z = D2 p d δ3 b n z := by
  by_cases hD : p.nDim = 3
  · rw [h hD]
  · simp [D2, hD]

theorem Match.tj {c : Child R nf} {p : Parent R nf} (h : Match c p) : p.box.js ≤ p.box.je + 1 := by
  rcases h.c2 with h' | h' <;> omega
theorem Match.tk {c : Child R nf} {p : Parent R nf} (h : Match c p) : p.box.ks ≤ p.box.ke + 1 := by
  rcases h.c3 with h' | h' <;> omega
theorem Match.ti {c : Child R nf} {p : Parent R nf} (h : Match c p) : p.box.is ≤ p.box.ie + 1 := h.x1.2

theorem emf_side {c : Child R nf} {p : Parent R nf} (h : Match c p) (he : EMatch c p) (d : Fin 6) :
    ∃ w, c.emfWords d = some w ∧ (p.nDim ≤ 1 → w = []) ∧ ∀ (s : PState R nf) (rest : List R), ∃ s',
      corrOf p d (s, w ++ rest) = some (s', rest) ∧ (∀ z n, s'.U (z, .f n) = s.U (z, .f n)) ∧
      ∀ n z, s'.B n z = s.B n z + emfAt c p d n z := by
  have s3 := he.same 2 d
  have s2 := he.same 1 d
  have s1 := he.same 0 d
  change (c.emf1 d).isSome = (p.emf1 d).isSome at s1
  change (c.emf2 d).isSome = (p.emf2 d).isSome at s2
  change (c.emf3 d).isSome = (p.emf3 d).isSome at s3
  rcases normal_cases d with ⟨hn, _⟩ | ⟨hn, _⟩ | ⟨hn, _⟩
  · cases h3 : p.emf3 d with
    | none =>
      have hc : c.emf3 d = none := by rw [h3] at s3; simpa using s3
      refine ⟨[], by simp [Child.emfWords, hn, hc], fun _ => rfl, fun s rest => ⟨s, ?_, fun _ _ => rfl, fun n z => ?_⟩⟩
      · simp [corrOf, hn, Parent.emfCorr1, h3]
      · simp [emfAt, hn, h3]
    | some E3 =>
      obtain ⟨G3, hG3⟩ := isSome_eq s3 h3
      have h2d := he.x1 d hn (by rw [h3]; rfl)
      obtain ⟨E2, G2, hE2, hG2⟩ : ∃ E2 G2, (p.nDim = 3 → p.emf2 d = some E2) ∧ (p.nDim = 3 → c.emf2 d = some G2) := by
        by_cases hD : p.nDim = 3
        · obtain ⟨E2, hE2⟩ := Option.isSome_iff_exists.1 (he.e2 d hn hD (by rw [h3]; rfl))
          obtain ⟨G2, hG2⟩ := isSome_eq s2 hE2
          exact ⟨E2, G2, fun _ => hE2, fun _ => hG2⟩
        · exact ⟨fun _ _ => 0, fun _ _ => 0, fun e => absurd e hD, fun e => absurd e hD⟩
      refine ⟨_, emfWords1 h d hn h2d G3 G2 hG3 hG2, fun e => absurd h2d (by omega), fun s rest => ?_⟩
      obtain ⟨s', q, u, b⟩ := emfCorr1_eq p d h.tj h.tk E3 E2 G3 G2 h3 hE2 s rest
      refine ⟨s', by rw [corrOf, if_pos hn, q], u, fun n z => ?_⟩
      rw [b]
      congr 1
      have : dO c p 2 d = dE p 0 2 E3 G3 := by
        have e1 : p.emf 2 d = some E3 := h3
        have e2 : c.emf 2 d = some G3 := hG3
        rw [dO, e1, e2, hn]
      rw [emfAt, if_pos hn, h3, Option.isSome_some, if_pos rfl, this]
      apply D1_congr
      intro hD
      have e1 : p.emf 1 d = some E2 := hE2 hD
      have e2 : c.emf 1 d = some G2 := hG2 hD
      rw [dO, e1, e2, hn]
  · have hn0 : ¬ normal d = 0 := by rw [hn]; decide
    cases h3 : p.emf3 d with
    | none =>
      have hc : c.emf3 d = none := by rw [h3] at s3; simpa using s3
      refine ⟨[], by simp [Child.emfWords, hn, hc], fun _ => rfl, fun s rest => ⟨s, ?_, fun _ _ => rfl, fun n z => ?_⟩⟩
      · simp [corrOf, hn, Parent.emfCorr2, h3]
      · simp [emfAt, hn, h3]
    | some E3 =>
      obtain ⟨G3, hG3⟩ := isSome_eq s3 h3
      have h2d := he.x2 d hn (by rw [h3]; rfl)
      obtain ⟨E2, G2, hE2, hG2⟩ : ∃ E2 G2, (p.nDim = 3 → p.emf1 d = some E2) ∧ (p.nDim = 3 → c.emf1 d = some G2) := by
        by_cases hD : p.nDim = 3
        · obtain ⟨E2, hE2⟩ := Option.isSome_iff_exists.1 (he.e1 d hn hD (by rw [h3]; rfl))
          obtain ⟨G2, hG2⟩ := isSome_eq s1 hE2
          exact ⟨E2, G2, fun _ => hE2, fun _ => hG2⟩
        · exact ⟨fun _ _ => 0, fun _ _ => 0, fun e => absurd e hD, fun e => absurd e hD⟩
      refine ⟨_, emfWords2 h d hn h2d G3 G2 hG3 hG2, fun e => absurd h2d (by omega), fun s rest => ?_⟩
      obtain ⟨s', q, u, b⟩ := emfCorr2_eq p d h.ti h.tk E3 E2 G3 G2 h3 hE2 s rest
      refine ⟨s', by rw [corrOf, if_neg hn0, if_pos hn, q], u, fun n z => ?_⟩
      rw [b]
      congr 1
      have : dO c p 2 d = dE p 1 2 E3 G3 := by
        have e1 : p.emf 2 d = some E3 := h3
        have e2 : c.emf 2 d = some G3 := hG3
        rw [dO, e1, e2, hn]
      rw [emfAt, if_neg hn0, if_pos hn, h3, Option.isSome_some, if_pos rfl, this]
      apply D2_congr
      intro hD
      have e1 : p.emf 0 d = some E2 := hE2 hD
      have e2 : c.emf 0 d = some G2 := hG2 hD
      rw [dO, e1, e2, hn]
  · have hn0 : ¬ normal d = 0 := by rw [hn]; decide
    have hn1 : ¬ normal d = 1 := by rw [hn]; decide
    cases h1 : p.emf1 d with
    | none =>
      have hc : c.emf1 d = none := by rw [h1] at s1; simpa using s1
      refine ⟨[], by simp [Child.emfWords, hn, hc], fun _ => rfl, fun s rest => ⟨s, ?_, fun _ _ => rfl, fun n z => ?_⟩⟩
      · simp [corrOf, hn, Parent.emfCorr3, h1]
      · simp [emfAt, hn, h1]
    | some E1 =>
      obtain ⟨G1, hG1⟩ := isSome_eq s1 h1
      have hD := he.x3 d hn (by rw [h1]; rfl)
      obtain ⟨E2, hE2⟩ := Option.isSome_iff_exists.1 (he.e2' d hn (by rw [h1]; rfl))
      obtain ⟨G2, hG2⟩ := isSome_eq s2 hE2
      refine ⟨_, emfWords3 h d hn hD G1 G2 hG1 hG2, fun e => absurd hD (by omega), fun s rest => ?_⟩
      obtain ⟨s', q, u, b⟩ := emfCorr3_eq p d h.tj h.ti E1 E2 G1 G2 h1 hE2 s rest
      refine ⟨s', by rw [corrOf, if_neg hn0, if_neg hn1, q], u, fun n z => ?_⟩
      rw [b]
      congr 1
      have e1 : dO c p 0 d = dE p 2 0 E1 G1 := by
        have e1 : p.emf 0 d = some E1 := h1
        have e2 : c.emf 0 d = some G1 := hG1
        rw [dO, e1, e2, hn]
      have e2 : dO c p 1 d = dE p 2 1 E2 G2 := by
        have e1 : p.emf 1 d = some E2 := hE2
        have e2 : c.emf 1 d = some G2 := hG2
        rw [dO, e1, e2, hn]
      rw [emfAt, if_neg hn0, if_neg hn1, h1, Option.isSome_some, if_pos rfl, e1, e2]

theorem emf_sides {c : Child R nf} {p : Parent R nf} (h : Match c p) (he : EMatch c p) (ds : List (Fin 6)) :
    ∃ w, c.sendEmf ds = some w ∧ (p.nDim ≤ 1 → w = []) ∧ ∀ (s : PState R nf) (rest : List R), ∃ s',
      seqs (ds.map (corrOf p)) (s, w ++ rest) = some (s', rest) ∧ (∀ z n, s'.U (z, .f n) = s.U (z, .f n)) ∧
      ∀ n z, s'.B n z = s.B n z + (ds.map fun d => emfAt c p d n z).sum := by
  induction ds with
  | nil => exact ⟨[], rfl, fun _ => rfl, fun s rest => ⟨s, rfl, fun _ _ => rfl, fun n z => by simp⟩⟩
  | cons d ds ih =>
    obtain ⟨w, hw, h0, hs⟩ := ih
    obtain ⟨w1, hw1, h01, hs1⟩ := emf_side h he d
    refine ⟨w1 ++ w, by simp [Child.sendEmf, hw1, hw], fun hD => by rw [h0 hD, h01 hD]; rfl, fun s rest => ?_⟩
    obtain ⟨s1, q1, u1, b1⟩ := hs1 s (w ++ rest)
    obtain ⟨s2, q2, u2, b2⟩ := hs s1 rest
    refine ⟨s2, ?_, fun z n => by rw [u2, u1], fun n z => ?_⟩
    · rw [List.map_cons, List.append_assoc, seqs_cons _ _ _ _ q1, q2]
    · rw [b2, b1, List.map_cons, List.sum_cons, add_assoc]

theorem emfAt_1D {c : Child R nf} {p : Parent R nf} (h : Match c p) (he : EMatch c p) (hD : p.nDim ≤ 1) (d : Fin 6)
    (n : Fin 3) (z : Z3) : emfAt c p d n z = 0 := by
  unfold emfAt
  rcases normal_cases d with ⟨hn, _⟩ | ⟨hn, _⟩ | ⟨hn, _⟩
  · rw [if_pos hn, if_neg]
    intro e; have := he.x1 d hn e; omega
  · rw [if_neg (by rw [hn]; decide), if_pos hn, if_neg]
    intro e; have := he.x2 d hn e; omega
  · rw [if_neg (by rw [hn]; decide), if_neg (by rw [hn]; decide), if_neg]
    intro e; have := he.x3 d hn e; omega

theorem emfCorr_eq {c : Child R nf} {p : Parent R nf} (h : Match c p) (he : EMatch c p) :
    ∃ w, c.sendEmf Child.dims = some w ∧ ∀ (s : PState R nf), ∃ s',
      p.emfCorr (s, w) = some (s', []) ∧ (∀ z n, s'.U (z, .f n) = s.U (z, .f n)) ∧
      ∀ n z, s'.B n z = s.B n z + (Child.dims.map fun d => emfAt c p d n z).sum := by
  obtain ⟨w, hw, h0, hs⟩ := emf_sides h he Child.dims
  refine ⟨w, hw, fun s => ?_⟩
  by_cases hD : 1 < p.nDim
  · obtain ⟨s', q, u, b⟩ := hs s []
    rw [List.append_nil] at q
    refine ⟨s', ?_, u, b⟩
    rw [← q, Parent.emfCorr, if_pos hD]
    rfl
  · refine ⟨s, by rw [Parent.emfCorr, if_neg hD, h0 (by omega)], fun _ _ => rfl, fun n z => ?_⟩
    have : (fun d => emfAt c p d n z) = fun _ => 0 := funext fun d => emfAt_1D h he (by omega) d n z
    rw [this]
    simp [Child.dims]

/-- The variables other than the field after an exchange. -/
def newU (c : Child R nf) (p : Parent R nf) (s : PState R nf) (y : Z3 × Var nf) : R :=
  (if y ∈ p.zones ×ˢ p.vs then consW c p y else s.U y) + (Child.dims.map fun d => corrAt c p d y).sum

/-- The state after Step 1b. -/
def injS (c : Child R nf) (p : Parent R nf) (s : PState R nf) : PState R nf :=
  { s with U := fun y => if y ∈ p.zones ×ˢ p.vs then consW c p y else s.U y }

/-- The face field after an exchange. -/
def newB (c : Child R nf) (p : Parent R nf) (s : PState R nf) (n : Fin 3) (z : Z3) : R :=
  injB c p (injS c p s) n z + (Child.dims.map fun d => emfAt c p d n z).sum

/-- Whole exchange with magnetic field: what the parent holds afterwards. -/
theorem unpack_mhd {c : Child R nf} {p : Parent R nf} (h : Match c p) (he : EMatch c p) (ht : Thick p)
    (hm : p.mhd = true) (s : PState R nf) :
    ∃ w s', c.send = some w ∧ p.unpack (s, w) = some (s', []) ∧ (∀ z n, s'.U (z, .f n) = newU c p s (z, .f n)) ∧
      s'.B = newB c p s := by
  obtain ⟨we, hwe, hse⟩ := emfCorr_eq h he
  have hsend : c.send = some ((p.zones ×ˢ p.vs).map (consW c p) ++ fldWs c p ++ flxWs c p Child.dims ++ we) := by
    unfold Child.send
    rw [sendCons_eq h, Option.bind_some, h.mhd, hm]
    simp only [if_true]
    rw [sendFld_eq h]
    rw [nCons_eq h, nFld_eq h, show ((p.zones ×ˢ p.vs).length : ℤ) + ((fldWs c p).length : ℤ) =
      (((p.zones ×ˢ p.vs).map (consW c p) ++ fldWs c p).length : ℤ) by simp,
      sendFlx_eq h, Option.bind_some, hwe, Option.map_some]
  have hinj := injectU_eq (c := c) (p := p) s (fldWs c p ++ (flxWs c p Child.dims ++ we))
  have hB := injectB_eq h ht (injS c p s) (flxWs c p Child.dims ++ we)
  have hF := fluxCorrs_eq h Child.dims { injS c p s with U := injU c p (injS c p s), B := injB c p (injS c p s) } we
  obtain ⟨s', q, u, b⟩ := hse { injS c p s with U := fun y => injU c p (injS c p s) y + (Child.dims.map fun d => corrAt c p d y).sum, B := injB c p (injS c p s) }
  refine ⟨_, s', hsend, ?_, ?_, ?_⟩
  · unfold Parent.unpack
    rw [hm]
    simp only [if_true]
    rw [List.append_assoc, List.append_assoc, seqs_cons _ _ _ _ hinj]
    change seqs [_, _, _] (injS c p s, _) = _
    rw [seqs_cons _ _ _ _ hB, seqs_cons _ _ _ _ hF, seqs_cons _ _ _ _ q]
    rfl
  · intro z n
    rw [u]
    rfl
  · funext n z
    rw [b]
    rfl

end Athena.Smr
