import Verif.Fft.Model
import Mathlib.Tactic.Ring
import Mathlib.Tactic.Linarith
import Mathlib.Data.List.Perm.Basic

/-!
# Boxes, places, and the lists of addresses
-/

namespace Athena.Fft
variable {D : Type _}

/-! ## Specification -/

/-- The element `(i, j, k)` belongs to the box. -/
def Ext.has (e : Ext) (i j k : ℤ) : Prop := (e.ilo ≤ i ∧ i ≤ e.ihi) ∧ (e.jlo ≤ j ∧ j ≤ e.jhi) ∧ (e.klo ≤ k ∧ k ≤ e.khi)

/-- The place of an element among those of its box: storage order `permute`, remap_3d.c:128-131. -/
def place (perm : ℕ) (e : Ext) (i j k : ℤ) : ℤ :=
  if perm = 0 then ((k - e.klo) * e.jsize + (j - e.jlo)) * e.isize + (i - e.ilo)
  else if perm = 1 then ((i - e.ilo) * e.ksize + (k - e.klo)) * e.jsize + (j - e.jlo)
  else ((j - e.jlo) * e.isize + (i - e.ilo)) * e.ksize + (k - e.klo)

/-- The array `m` of a process holds the part of the data set `A` that lies in its box. -/
def Holds (nqty perm : ℕ) (e : Ext) (A : ℤ → ℤ → ℤ → ℕ → D) (m : Mem D) : Prop :=
  ∀ i j k, e.has i j k → ∀ c < nqty, m (nqty * place perm e i j k + c) = A i j k c

/-! ## Overlaps -/

theorem collide_comm (a b : Ext) : collide a b = collide b a := by
  unfold collide
  simp only [max_comm a.ilo, min_comm a.ihi, max_comm a.jlo, min_comm a.jhi, max_comm a.klo, min_comm a.khi]

theorem collide_some {a b o : Ext} (h : collide a b = some o) :
    (∀ i j k, o.has i j k ↔ a.has i j k ∧ b.has i j k) ∧ o.ilo ≤ o.ihi ∧ o.jlo ≤ o.jhi ∧ o.klo ≤ o.khi := by
  unfold collide at h
  simp only at h
  split at h
  · cases h
  · rename_i hn
    cases h
    push Not at hn
    refine ⟨fun i j k => ?_, hn.1, hn.2.1, hn.2.2⟩
    unfold Ext.has
    simp only [max_le_iff, le_min_iff]
    tauto

theorem collide_of {a b : Ext} {i j k : ℤ} (ha : a.has i j k) (hb : b.has i j k) : ∃ o, collide a b = some o := by
  unfold collide
  simp only
  unfold Ext.has at ha hb
  rw [if_neg]
  · exact ⟨_, rfl⟩
  · push Not
    refine ⟨max_le_iff.mpr ⟨le_min_iff.mpr ?_, le_min_iff.mpr ?_⟩, max_le_iff.mpr ⟨le_min_iff.mpr ?_, le_min_iff.mpr ?_⟩,
      max_le_iff.mpr ⟨le_min_iff.mpr ?_, le_min_iff.mpr ?_⟩⟩ <;> constructor <;> omega

/-! ## The elements of a box in the order of the loops -/

/-- slow, mid, fast, number within the element -/
def cells (ni nj nk nq : ℕ) : List (ℕ × ℕ × ℕ × ℕ) :=
  (List.range nk).flatMap fun s => (List.range nj).flatMap fun m => (List.range ni).flatMap fun f => (List.range nq).map fun c => (s, m, f, c)

theorem mem_cells {ni nj nk nq s m f c : ℕ} : (s, m, f, c) ∈ cells ni nj nk nq ↔ s < nk ∧ m < nj ∧ f < ni ∧ c < nq := by
  simp only [cells, List.mem_flatMap, List.mem_range, List.mem_map, Prod.mk.injEq]
  constructor
  · rintro ⟨_, h1, _, h2, _, h3, _, h4, rfl, rfl, rfl, rfl⟩; exact ⟨h1, h2, h3, h4⟩
  · rintro ⟨h1, h2, h3, h4⟩; exact ⟨s, h1, m, h2, f, h3, c, h4, rfl, rfl, rfl, rfl⟩

theorem length_flatMap_const {α β : Type _} (l : List α) (f : α → List β) (n : ℕ) (h : ∀ a, (f a).length = n) :
    (l.flatMap f).length = l.length * n := by
  induction l with
  | nil => simp
  | cons a l ih => simp [List.flatMap_cons, h, ih, Nat.succ_mul, Nat.add_comm]

theorem length_cells (ni nj nk nq : ℕ) : (cells ni nj nk nq).length = nk * (nj * (ni * nq)) := by
  unfold cells
  rw [length_flatMap_const _ _ (nj * (ni * nq)), List.length_range]
  intro s
  rw [length_flatMap_const _ _ (ni * nq), List.length_range]
  intro m
  rw [length_flatMap_const _ _ nq, List.length_range]
  intro f
  simp

theorem range_mul (q n : ℕ) (b : ℤ) :
    (List.range (q * n)).map (fun f : ℕ => b + (f : ℤ)) = (List.range n).flatMap fun f : ℕ => (List.range q).map fun c : ℕ => b + ((q : ℤ) * f + c) := by
  induction n with
  | zero => simp
  | succ n ih =>
    rw [Nat.mul_succ, List.range_add, List.map_append, ih, List.range_succ, List.flatMap_append]
    congr 1
    simp only [List.map_map, List.flatMap_cons, List.flatMap_nil, List.append_nil]
    apply List.map_congr_left
    intro c _
    simp

theorem packAddr_cells (ni nj nk nq : ℕ) (line plane : ℤ) :
    packAddr ⟨(nq : ℤ) * ni, nj, nk, line, plane, nq⟩ = (cells ni nj nk nq).map fun t => t.1 * plane + t.2.1 * line + (nq * t.2.2.1 + t.2.2.2) := by
  unfold packAddr cells
  have e : ((nq : ℤ) * ni).toNat = nq * ni := by rw [← Nat.cast_mul, Int.toNat_natCast]
  simp only [e, Int.toNat_natCast, List.map_flatMap, List.map_map, range_mul]
  rfl

theorem addr1n_cells (ni nj nk nq : ℕ) (line plane : ℤ) :
    addr1n ⟨ni, nj, nk, line, plane, nq⟩ = (cells ni nj nk nq).map fun t => t.1 * line + nq * t.2.1 + t.2.2.1 * plane + t.2.2.2 := by
  unfold addr1n cells
  simp only [Int.toNat_natCast, List.map_flatMap, List.map_map]
  rfl

theorem addr2n_cells (ni nj nk nq : ℕ) (line plane : ℤ) :
    addr2n ⟨ni, nj, nk, line, plane, nq⟩ = (cells ni nj nk nq).map fun t => nq * t.1 + t.2.1 * plane + t.2.2.1 * line + t.2.2.2 := by
  unfold addr2n cells
  simp only [Int.toNat_natCast, List.map_flatMap, List.map_map]
  rfl

theorem flatMap_single {α β : Type _} (l : List α) (f : α → β) : (l.flatMap fun a => [f a]) = l.map f := by
  induction l with
  | nil => rfl
  | cons a l ih => simp [List.flatMap_cons, ih]

theorem addr11_eq (nf nm ns line plane : ℤ) : addr11 ⟨nf, nm, ns, line, plane, 1⟩ = addr1n ⟨nf, nm, ns, line, plane, 1⟩ := by
  unfold addr11 addr1n
  simp [flatMap_single]

theorem addr21_eq (nf nm ns line plane : ℤ) : addr21 ⟨nf, nm, ns, line, plane, 1⟩ = addr2n ⟨nf, nm, ns, line, plane, 1⟩ := by
  unfold addr21 addr2n
  simp [flatMap_single]

theorem addr12_eq (nf nm ns line plane : ℤ) : addr12 ⟨nf, nm, ns, line, plane, 2⟩ = addr1n ⟨nf, nm, ns, line, plane, 2⟩ := by
  unfold addr12 addr1n
  have e : List.range 2 = [0, 1] := rfl
  simp [e]

theorem addr22_eq (nf nm ns line plane : ℤ) : addr22 ⟨nf, nm, ns, line, plane, 2⟩ = addr2n ⟨nf, nm, ns, line, plane, 2⟩ := by
  unfold addr22 addr2n
  have e : List.range 2 = [0, 1] := rfl
  simp [e]

/-- The address in the receiving array, relative to `recv_offset`, of the cell `t` of the overlap. -/
def toAddr (perm nq : ℕ) (e : Ext) (t : ℕ × ℕ × ℕ × ℕ) : ℤ :=
  if perm = 0 then t.1 * (nq * e.jsize * e.isize) + t.2.1 * (nq * e.isize) + (nq * t.2.2.1 + t.2.2.2)
  else if perm = 1 then t.1 * (nq * e.jsize) + nq * t.2.1 + t.2.2.1 * (nq * e.ksize * e.jsize) + t.2.2.2
  else nq * t.1 + t.2.1 * (nq * e.isize * e.ksize) + t.2.2.1 * (nq * e.ksize) + t.2.2.2

theorem recv_addr (nq perm : ℕ) (e : Ext) (ib : ℤ) (p : ℕ) (o : Ext) (ni nj nk : ℕ) (hi : o.isize = ni) (hj : o.jsize = nj) (hk : o.ksize = nk) :
    unpackAddr perm nq (recv1 nq perm e ib p o).pk = (cells ni nj nk nq).map (toAddr perm nq e) := by
  unfold unpackAddr recv1
  simp only [hi, hj, hk]
  by_cases h0 : perm = 0
  · subst h0
    simp only [if_true]
    rw [packAddr_cells]
    apply List.map_congr_left; intro t _; simp [toAddr]
  · by_cases h1 : perm = 1
    · subst h1
      simp only [h0, if_true, if_false]
      have : (if nq = 1 then addr11 ⟨ni, nj, nk, nq * e.jsize, nq * e.ksize * e.jsize, nq⟩
        else if nq = 2 then addr12 ⟨ni, nj, nk, nq * e.jsize, nq * e.ksize * e.jsize, nq⟩
        else addr1n ⟨ni, nj, nk, nq * e.jsize, nq * e.ksize * e.jsize, nq⟩)
        = addr1n ⟨ni, nj, nk, nq * e.jsize, nq * e.ksize * e.jsize, nq⟩ := by
        split
        · rename_i h; subst h; simpa using addr11_eq ni nj nk _ _
        · split
          · rename_i h; subst h; exact addr12_eq _ _ _ _ _
          · rfl
      rw [this, addr1n_cells]
      apply List.map_congr_left; intro t _; simp [toAddr]
    · simp only [h0, h1, if_false]
      have : (if nq = 1 then addr21 ⟨ni, nj, nk, nq * e.ksize, nq * e.isize * e.ksize, nq⟩
        else if nq = 2 then addr22 ⟨ni, nj, nk, nq * e.ksize, nq * e.isize * e.ksize, nq⟩
        else addr2n ⟨ni, nj, nk, nq * e.ksize, nq * e.isize * e.ksize, nq⟩)
        = addr2n ⟨ni, nj, nk, nq * e.ksize, nq * e.isize * e.ksize, nq⟩ := by
        split
        · rename_i h; subst h; simpa using addr21_eq ni nj nk _ _
        · split
          · rename_i h; subst h; exact addr22_eq _ _ _ _ _
          · rfl
      rw [this, addr2n_cells]
      apply List.map_congr_left; intro t _; simp [toAddr, h0, h1]

/-- The address in the sending array of the cell `t` of the overlap. -/
theorem send_pack (nq : ℕ) (e : Ext) (p : ℕ) (o : Ext) (ni nj nk : ℕ) (hi : o.isize = ni) (hj : o.jsize = nj) (hk : o.ksize = nk)
    (data : Mem D) :
    pack data (send1 nq e p o).off (send1 nq e p o).pk
      = (cells ni nj nk nq).map fun t => data (nq * place 0 e (o.ilo + t.2.2.1) (o.jlo + t.2.1) (o.klo + t.1) + t.2.2.2) := by
  unfold pack send1
  simp only [hi, hj, hk]
  rw [packAddr_cells, List.map_map]
  apply List.map_congr_left
  intro t _
  simp only [Function.comp, place, if_true]
  congr 1
  ring

theorem recv_place (nq perm : ℕ) (e : Ext) (ib : ℤ) (p : ℕ) (o : Ext) (t : ℕ × ℕ × ℕ × ℕ) :
    (recv1 nq perm e ib p o).off + toAddr perm nq e t = nq * place perm e (o.ilo + t.2.2.1) (o.jlo + t.2.1) (o.klo + t.1) + t.2.2.2 := by
  unfold recv1 toAddr place
  by_cases h0 : perm = 0
  · simp only [h0, if_true]; ring
  · by_cases h1 : perm = 1
    · subst h1; simp only [h0, if_true, if_false]; ring
    · simp only [h0, h1, if_false]; ring

/-! ## Different elements have different places -/

theorem two_digit {n a b a' b' : ℤ} (hb : 0 ≤ b) (hbn : b < n) (hb' : 0 ≤ b') (hbn' : b' < n) (h : a * n + b = a' * n + b') : a = a' ∧ b = b' := by
  have hn : 0 < n := by omega
  have e1 : (a * n + b) / n = a := by rw [Int.add_comm, Int.add_mul_ediv_right _ _ (by omega), Int.ediv_eq_zero_of_lt hb hbn]; omega
  have e2 : (a' * n + b') / n = a' := by rw [Int.add_comm, Int.add_mul_ediv_right _ _ (by omega), Int.ediv_eq_zero_of_lt hb' hbn']; omega
  have e : a = a' := by rw [← e1, ← e2, h]
  refine ⟨e, ?_⟩
  subst e
  omega

theorem place_inj (perm nq : ℕ) (e : Ext) {i j k i' j' k' : ℤ} {c c' : ℕ} (h : e.has i j k) (h' : e.has i' j' k') (hc : c < nq) (hc' : c' < nq)
    (he : (nq : ℤ) * place perm e i j k + c = nq * place perm e i' j' k' + c') : i = i' ∧ j = j' ∧ k = k' ∧ c = c' := by
  rw [mul_comm (nq : ℤ), mul_comm (nq : ℤ)] at he
  obtain ⟨hp, hcc⟩ := two_digit (by omega) (by exact_mod_cast hc) (by omega) (by exact_mod_cast hc') he
  obtain ⟨hi, hj, hk⟩ := h
  obtain ⟨hi', hj', hk'⟩ := h'
  have si : e.isize = e.ihi - e.ilo + 1 := rfl
  have sj : e.jsize = e.jhi - e.jlo + 1 := rfl
  have sk : e.ksize = e.khi - e.klo + 1 := rfl
  unfold place at hp
  split at hp
  · obtain ⟨a, b⟩ := two_digit (by omega) (by omega) (by omega) (by omega) hp
    obtain ⟨c, d⟩ := two_digit (by omega) (by omega) (by omega) (by omega) a
    refine ⟨?_, ?_, ?_, ?_⟩ <;> omega
  · split at hp
    · obtain ⟨a, b⟩ := two_digit (by omega) (by omega) (by omega) (by omega) hp
      obtain ⟨c, d⟩ := two_digit (by omega) (by omega) (by omega) (by omega) a
      refine ⟨?_, ?_, ?_, ?_⟩ <;> omega
    · obtain ⟨a, b⟩ := two_digit (by omega) (by omega) (by omega) (by omega) hp
      obtain ⟨c, d⟩ := two_digit (by omega) (by omega) (by omega) (by omega) a
      refine ⟨?_, ?_, ?_, ?_⟩ <;> omega

theorem digit_bound {n m a b : ℤ} (ha : 0 ≤ a) (ham : a < m) (hb : 0 ≤ b) (hbn : b < n) : 0 ≤ a * n + b ∧ a * n + b < m * n := by
  have hn : 0 < n := by omega
  have h1 : 0 ≤ a * n := mul_nonneg ha hn.le
  have h2 : (a + 1) * n ≤ m * n := mul_le_mul_of_nonneg_right (by omega) hn.le
  constructor
  · omega
  · nlinarith

/-- The places of a box are numbered from 0 to one less than the number of its elements. -/
theorem place_bound (perm : ℕ) (e : Ext) {i j k : ℤ} (h : e.has i j k) :
    0 ≤ place perm e i j k ∧ place perm e i j k < e.isize * e.jsize * e.ksize := by
  obtain ⟨hi, hj, hk⟩ := h
  have si : e.isize = e.ihi - e.ilo + 1 := rfl
  have sj : e.jsize = e.jhi - e.jlo + 1 := rfl
  have sk : e.ksize = e.khi - e.klo + 1 := rfl
  unfold place
  split
  · have h1 := digit_bound (n := e.jsize) (m := e.ksize) (a := k - e.klo) (b := j - e.jlo) (by omega) (by omega) (by omega) (by omega)
    have h2 := digit_bound (n := e.isize) (b := i - e.ilo) h1.1 h1.2 (by omega) (by omega)
    exact ⟨h2.1, by calc _ < _ := h2.2
                  _ = _ := by ring⟩
  · split
    · have h1 := digit_bound (n := e.ksize) (m := e.isize) (a := i - e.ilo) (b := k - e.klo) (by omega) (by omega) (by omega) (by omega)
      have h2 := digit_bound (n := e.jsize) (b := j - e.jlo) h1.1 h1.2 (by omega) (by omega)
      exact ⟨h2.1, by calc _ < _ := h2.2
                    _ = _ := by ring⟩
    · have h1 := digit_bound (n := e.isize) (m := e.jsize) (a := j - e.jlo) (b := i - e.ilo) (by omega) (by omega) (by omega) (by omega)
      have h2 := digit_bound (n := e.ksize) (b := k - e.klo) h1.1 h1.2 (by omega) (by omega)
      exact ⟨h2.1, by calc _ < _ := h2.2
                    _ = _ := by ring⟩

/-! ## Unpacking -/

theorem unpack_at (buf : Mem D) (loc : ℤ) (data : Mem D) (off : ℤ) (as : List ℤ) (x : ℤ) (v : D) (n0 : ℕ)
    (hv : ∀ n (h : n < as.length), off + as[n] = x → buf (loc + (n0 + n : ℕ)) = v) :
    let r := (as.zipIdx n0).foldl (fun d y => put d (off + y.1) (buf (loc + y.2))) data
    ((∃ a ∈ as, off + a = x) → r x = v) ∧ ((∀ a ∈ as, off + a ≠ x) → r x = data x) := by
  induction as generalizing data n0 with
  | nil => simp
  | cons a as ih =>
    intro r
    have hr : r = (as.zipIdx (n0 + 1)).foldl (fun d y => put d (off + y.1) (buf (loc + y.2))) (put data (off + a) (buf (loc + (n0 : ℕ)))) := by
      simp only [r, List.zipIdx_cons, List.foldl_cons]
    obtain ⟨h1, h2⟩ := ih (put data (off + a) (buf (loc + (n0 : ℕ)))) (n0 + 1) (by
      intro n h hx
      have := hv (n + 1) (by simpa using h) (by simpa using hx)
      rw [← this]; congr 2; push_cast; ring)
    rw [hr]
    constructor
    · rintro ⟨b, hb, hbx⟩
      by_cases hc : ∃ b ∈ as, off + b = x
      · exact h1 hc
      · push Not at hc
        rw [h2 hc]
        rcases List.mem_cons.mp hb with rfl | hb
        · have := hv 0 (by simp) (by simpa using hbx)
          simp only [put, hbx, if_true]
          simpa using this
        · exact absurd hbx (hc b hb)
    · intro hn
      rw [h2 (fun b hb => hn b (List.mem_cons_of_mem _ hb))]
      have := hn a (List.mem_cons_self ..)
      simp only [put]
      rw [if_neg (fun h => this h.symm)]

theorem store_in (m : Mem D) (loc : ℤ) (buf : List D) (n : ℕ) (h : n < buf.length) : store m loc buf (loc + n) = buf[n] := by
  unfold store
  rw [if_pos (by omega)]
  have : (loc + (n : ℤ) - loc).toNat = n := by omega
  rw [this]; simp [h]

theorem store_out (m : Mem D) (loc : ℤ) (buf : List D) (a : ℤ) (h : a < loc ∨ loc + buf.length ≤ a) : store m loc buf a = m a := by
  unfold store
  split
  · rename_i h'
    have : buf.length ≤ (a - loc).toNat := by omega
    simp [this]
  · rfl

end Athena.Fft
