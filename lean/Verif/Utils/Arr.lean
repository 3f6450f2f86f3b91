import Verif.Base
import Mathlib.Tactic.Ring
import Mathlib.Tactic.Linarith

/-!
# src/ath_array.c: arrays of any type as tables of pointers into one block; C49

Addresses are byte offsets in the block of elements.  `size_t` has 64 bits and pointers 8 bytes.
-/

namespace Athena.Arr

/-- 2^64: `size_t` arithmetic wraps. -/
def W : ℕ := 18446744073709551616

/-- A block of memory from `calloc`: its bytes, all zero. -/
def zeros (len : ℕ) : List ℕ := List.replicate len 0

/-- `calloc(n,size)`: fails if the product does not fit in `size_t` or the system (`sys`) refuses; otherwise
a zeroed block.  The failure is answered by `ath_error`. -/
def calloc (sys : ℕ → Bool) (n size : ℕ) : Res (List ℕ) :=
  if n * size < W ∧ sys (n * size) = true then .ok (zeros (n * size)) else .fatal

/-- A table of pointers (in the block of pointers; `none` = NULL), with its length. -/
structure Tab where
  len : ℕ
  at' : ℕ → Option ℕ

/-- Store a pointer. -/
def Tab.wr (t : Tab) (i v : ℕ) : Res Tab :=
  if i < t.len then .ok ⟨t.len, fun x => if x = i then some v else t.at' x⟩ else .ub

/-- Load a pointer that is then used. -/
def Tab.rd (t : Tab) (i : ℕ) : Res ℕ :=
  if i < t.len then match t.at' i with | some v => .ok v | none => .ub else .ub

/-- Pointer plus byte offset: must stay in the block of `len` bytes or one past its end. -/
def padd (len p off : ℕ) : Res ℕ := if p + off ≤ len then .ok (p + off) else .ub

/-- `for(i=a; i<a+n; i++)`. -/
def loop {σ : Type} (a : ℕ) (f : ℕ → σ → Res σ) : ℕ → σ → Res σ
  | 0, s => .ok s
  | n + 1, s => do let s ← loop a f n s; f (a + n) s

/-- A 1D array: the block. -/
structure A1 where
  data : List ℕ

/-- `calloc_1d_array`, src/ath_array.c:36-46. -/
def calloc1 (sys : ℕ → Bool) (nc size : ℕ) : Res A1 := do
  let d ← calloc sys nc size
  return ⟨d⟩

/-- A 2D array: the table of row pointers and the block. -/
structure A2 where
  tab : Tab
  data : List ℕ

/-- `calloc_2d_array`, src/ath_array.c:51-73.  The table exists before the block, so for `nr = 0` line 60
stores outside it. -/
def calloc2 (sys : ℕ → Bool) (nr nc size : ℕ) : Res A2 := do
  let _ ← calloc sys nr 8
  let d ← calloc sys (nr * nc % W) size
  let t ← Tab.wr ⟨nr, fun _ => none⟩ 0 0
  let t ← loop 1 (fun i t => do
    let p0 ← t.rd 0
    let p ← padd d.length p0 (i * nc * size % W)
    t.wr i p) (nr - 1) t
  return ⟨t, d⟩

/-- `array[i][j]`: address of the element. -/
def A2.addr (a : A2) (size i j : ℕ) : Res ℕ := do
  let p ← a.tab.rd i
  return p + j * size

/-- A 3D array: table of tables (each a position in the second block of pointers), that block, and the block
of elements. -/
structure A3 where
  tab : Tab
  rows : Tab
  data : List ℕ

/-- `array[i][j] = …`. -/
def A3.wr (t1 t2 : Tab) (i j v : ℕ) : Res Tab := do
  let b ← t1.rd i
  t2.wr (b + j) v

/-- `array[i][j]`. -/
def A3.rd (t1 t2 : Tab) (i j : ℕ) : Res ℕ := do
  let b ← t1.rd i
  t2.rd (b + j)

/-- `calloc_3d_array`, src/ath_array.c:78-123.  Pointers into the second block are counted in pointers, so
line 97's byte offset `i*nr*sizeof(void*)` is `i*nr`. -/
def calloc3 (sys : ℕ → Bool) (nt nr nc size : ℕ) : Res A3 := do
  let _ ← calloc sys nt 8
  let _ ← calloc sys (nt * nr % W) 8
  let t ← Tab.wr ⟨nt, fun _ => none⟩ 0 0
  let t ← loop 1 (fun i t => do
    let p0 ← t.rd 0
    let p ← padd (nt * nr % W) p0 (i * nr)
    t.wr i p) (nt - 1) t
  let d ← calloc sys (nt * nr * nc % W) size
  let r ← A3.wr t ⟨nt * nr % W, fun _ => none⟩ 0 0 0
  let r ← loop 1 (fun j r => do
    let q ← A3.rd t r 0 (j - 1)
    let q ← padd d.length q (nc * size % W)
    A3.wr t r 0 j q) (nr - 1) r
  let r ← loop 1 (fun i r => do
    let q ← A3.rd t r (i - 1) 0
    let q ← padd d.length q (nr * nc * size % W)
    let r ← A3.wr t r i 0 q
    loop 1 (fun j r => do
      let q ← A3.rd t r i (j - 1)
      let q ← padd d.length q (nc * size % W)
      A3.wr t r i j q) (nr - 1) r) (nt - 1) r
  return ⟨t, r, d⟩

/-- `array[i][j][k]`: address of the element. -/
def A3.addr (a : A3) (size i j k : ℕ) : Res ℕ := do
  let p ← A3.rd a.tab a.rows i j
  return p + k * size

/-! ## Lemmas -/

theorem loop_inv {σ : Type} (I : ℕ → σ → Prop) (a : ℕ) (f : ℕ → σ → Res σ) (n : ℕ) (s : σ) (h0 : I a s)
    (hs : ∀ i s, a ≤ i → i < a + n → I i s → ∃ s', f i s = .ok s' ∧ I (i + 1) s') :
    ∃ s', loop a f n s = .ok s' ∧ I (a + n) s' := by
  induction n with
  | zero => exact ⟨s, rfl, h0⟩
  | succ n ih =>
    obtain ⟨s1, h1, h2⟩ := ih (fun i s ha hi => hs i s ha (by omega))
    obtain ⟨s2, h3, h4⟩ := hs (a + n) s1 (by omega) (by omega) h2
    exact ⟨s2, by simp [loop, h1, h3], h4⟩

theorem calloc_ok {sys : ℕ → Bool} {n size : ℕ} (h : n * size < W) (hs : sys (n * size) = true) :
    calloc sys n size = .ok (zeros (n * size)) := if_pos ⟨h, hs⟩

theorem wr_ok {t : Tab} {i : ℕ} (v : ℕ) (h : i < t.len) :
    t.wr i v = .ok ⟨t.len, fun x => if x = i then some v else t.at' x⟩ := if_pos h

theorem rd_ok {t : Tab} {i v : ℕ} (h : i < t.len) (hv : t.at' i = some v) : t.rd i = .ok v := by
  unfold Tab.rd; rw [if_pos h, hv]

theorem padd_ok {len p off : ℕ} (h : p + off ≤ len) : padd len p off = .ok (p + off) := if_pos h

theorem length_zeros (n : ℕ) : (zeros n).length = n := by simp [zeros]

/-- Both loops that fill a table of `nr` rows of equal length give row `i` the offset `i * step`. -/
theorem fill_rows (nr step len : ℕ) (hnr : 1 ≤ nr) (hl : nr * step ≤ len ∨ step * (nr - 1) ≤ len)
    (t : Tab) (ht : t.len = nr) (h0 : t.at' 0 = some 0) (off : ℕ → ℕ)
    (hoff : ∀ i, i < nr → off i = i * step) :
    ∃ t', loop 1 (fun i (t : Tab) => do
        let p0 ← t.rd 0
        let p ← padd len p0 (off i)
        t.wr i p) (nr - 1) t = .ok t' ∧ t'.len = nr ∧ ∀ i, i < nr → t'.at' i = some (i * step) := by
  obtain ⟨t', h1, h2, h3⟩ := loop_inv (fun m (t : Tab) => t.len = nr ∧ ∀ i, i < m → t.at' i = some (i * step))
    1 (fun i (t : Tab) => do
        let p0 ← t.rd 0
        let p ← padd len p0 (off i)
        t.wr i p) (nr - 1) t
    ⟨ht, fun i hi => by obtain rfl : i = 0 := by omega
                        simpa using h0⟩ (by
      rintro i t ha hi ⟨e1, e2⟩
      have hle : 0 + off i ≤ len := by
        rw [hoff i (by omega)]
        rcases hl with hl | hl
        · have : i * step ≤ nr * step := Nat.mul_le_mul_right _ (by omega)
          omega
        · have : i * step ≤ (nr - 1) * step := Nat.mul_le_mul_right _ (by omega)
          rw [Nat.mul_comm step] at hl; omega
      refine ⟨⟨t.len, fun x => if x = i then some (0 + off i) else t.at' x⟩, ?_, e1, ?_⟩
      · rw [rd_ok (v := 0) (by omega) (by simpa using e2 0 (by omega))]
        simp only [Res.bind_ok]
        rw [padd_ok hle]
        simp only [Res.bind_ok]
        exact wr_ok _ (by omega)
      · intro x hx
        dsimp only
        by_cases hxi : x = i
        · rw [if_pos hxi, hxi, hoff i (by omega)]; simp
        · rw [if_neg hxi]; exact e2 x (by omega))
  refine ⟨t', h1, h2, fun i hi => h3 i (by omega)⟩

theorem mul_lt_of_lt {a b : ℕ} (c : ℕ) (h : a * b < c) (hb : 1 ≤ b) : a < c :=
  lt_of_le_of_lt (Nat.le_mul_of_pos_right _ hb) h

/-! ## C49 -/

/-- 1D arrays. -/
theorem calloc1_ok (sys : ℕ → Bool) (nc size : ℕ) (h : nc * size < W) (hs : sys (nc * size) = true) :
    calloc1 sys nc size = .ok ⟨zeros (nc * size)⟩ := by
  unfold calloc1; rw [calloc_ok h hs]; rfl

/-- C49 for 2D arrays: if the sizes fit the address space and memory is available, the array is one zeroed
block of `nr*nc*size` bytes and element `[i][j]` is at the offset `(i*nc + j)*size`. -/
theorem calloc2_ok (sys : ℕ → Bool) (nr nc size : ℕ) (hnr : 1 ≤ nr) (hsz : 1 ≤ size)
    (hp : nr * 8 < W) (h : nr * nc * size < W) (hs : ∀ n, n < W → sys n = true) :
    ∃ a, calloc2 sys nr nc size = .ok a ∧ a.data = zeros (nr * nc * size) ∧
      ∀ i j, i < nr → j < nc → a.addr size i j = .ok ((i * nc + j) * size) := by
  have e1 : nr * nc % W = nr * nc := Nat.mod_eq_of_lt (mul_lt_of_lt _ h hsz)
  unfold calloc2
  rw [calloc_ok hp (hs _ hp), e1, calloc_ok h (hs _ h), wr_ok 0 (by exact hnr)]
  simp only [Res.bind_ok, length_zeros]
  obtain ⟨t', k1, k2, k3⟩ := fill_rows nr (nc * size) (nr * nc * size) hnr
    (Or.inl (by rw [Nat.mul_assoc])) ⟨nr, fun x => if x = 0 then some 0 else none⟩ rfl rfl
    (fun i => i * nc * size % W) (by
      intro i hi
      rw [Nat.mod_eq_of_lt, Nat.mul_assoc]
      refine lt_of_le_of_lt ?_ h
      exact Nat.mul_le_mul_right _ (Nat.mul_le_mul_right _ hi.le))
  rw [k1]
  refine ⟨⟨t', zeros (nr * nc * size)⟩, rfl, rfl, ?_⟩
  intro i j hi hj
  unfold A2.addr
  rw [rd_ok (by rw [k2]; exact hi) (k3 i hi)]
  simp only [Res.bind_ok, Res.pure_eq_ok, Res.ok.injEq]
  ring

/-- C49 for 3D arrays. -/
theorem calloc3_ok (sys : ℕ → Bool) (nt nr nc size : ℕ) (hnt : 1 ≤ nt) (hnr : 1 ≤ nr) (hsz : 1 ≤ size)
    (hp : nt * nr * 8 < W) (h : nt * nr * nc * size < W) (hs : ∀ n, n < W → sys n = true) :
    ∃ a, calloc3 sys nt nr nc size = .ok a ∧ a.data = zeros (nt * nr * nc * size) ∧
      ∀ i j k, i < nt → j < nr → k < nc →
        a.addr size i j k = .ok (((i * nr + j) * nc + k) * size) := by
  have hp1 : nt * 8 < W := lt_of_le_of_lt (Nat.mul_le_mul_right _ (Nat.le_mul_of_pos_right _ hnr)) hp
  have e1 : nt * nr % W = nt * nr := Nat.mod_eq_of_lt (mul_lt_of_lt _ hp (by norm_num))
  have e2 : nt * nr * nc % W = nt * nr * nc := Nat.mod_eq_of_lt (mul_lt_of_lt _ h hsz)
  have e3 : nc * size % W = nc * size := Nat.mod_eq_of_lt (by
    refine lt_of_le_of_lt ?_ h
    rw [Nat.mul_assoc]; exact Nat.le_mul_of_pos_left _ (Nat.mul_pos hnt hnr))
  have e4 : nr * nc * size % W = nr * nc * size := Nat.mod_eq_of_lt (by
    refine lt_of_le_of_lt ?_ h
    rw [Nat.mul_assoc nt, Nat.mul_assoc nt]; exact Nat.le_mul_of_pos_left _ hnt)
  have hpos : 0 < nt * nr := Nat.mul_pos hnt hnr
  unfold calloc3
  rw [calloc_ok hp1 (hs _ hp1), e1, calloc_ok hp (hs _ hp), wr_ok 0 (by exact hnt)]
  simp only [Res.bind_ok]
  obtain ⟨t, k1, k2, k3⟩ := fill_rows nt nr (nt * nr) hnt (Or.inl le_rfl)
    ⟨nt, fun x => if x = 0 then some 0 else none⟩ rfl rfl (fun i => i * nr) (fun _ _ => rfl)
  rw [k1, e2, calloc_ok h (hs _ h), e3, e4]
  simp only [Res.bind_ok, length_zeros]
  -- reading and writing row pointers
  have hidx : ∀ i j, i < nt → j < nr → i * nr + j < nt * nr := by
    intro i j hi hj
    have : (i + 1) * nr ≤ nt * nr := Nat.mul_le_mul_right _ hi
    rw [Nat.add_mul, Nat.one_mul] at this; omega
  have hW : ∀ (r : Tab) i j v, r.len = nt * nr → i < nt → j < nr → A3.wr t r i j v =
      .ok ⟨r.len, fun x => if x = i * nr + j then some v else r.at' x⟩ := by
    intro r i j v hr hi hj
    unfold A3.wr
    rw [rd_ok (by rw [k2]; exact hi) (k3 i hi)]
    simp only [Res.bind_ok]
    exact wr_ok v (by rw [hr]; exact hidx i j hi hj)
  have hR : ∀ (r : Tab) i j v, r.len = nt * nr → i < nt → j < nr → r.at' (i * nr + j) = some v →
      A3.rd t r i j = .ok v := by
    intro r i j v hr hi hj hv
    unfold A3.rd
    rw [rd_ok (by rw [k2]; exact hi) (k3 i hi)]
    simp only [Res.bind_ok]
    exact rd_ok (by rw [hr]; exact hidx i j hi hj) hv
  have hbnd : ∀ q, q ≤ nt * nr → q * (nc * size) ≤ nt * nr * nc * size := by
    intro q hq
    rw [Nat.mul_assoc (nt * nr)]; exact Nat.mul_le_mul_right _ hq
  -- the inner loop over `j` of row `i`
  have hin : ∀ (r : Tab) i, i < nt → r.len = nt * nr →
      (∀ x, x ≤ i * nr → r.at' x = some (x * (nc * size))) →
      ∃ r', loop 1 (fun j r => do
        let q ← A3.rd t r i (j - 1)
        let q ← padd (nt * nr * nc * size) q (nc * size)
        A3.wr t r i j q) (nr - 1) r = .ok r' ∧ r'.len = nt * nr ∧
        ∀ x, x < (i + 1) * nr → r'.at' x = some (x * (nc * size)) := by
    intro r i hi hlen hr
    obtain ⟨r', q1, q2, q3⟩ := loop_inv (fun m (r : Tab) => r.len = nt * nr ∧
        ∀ x, x < i * nr + m → r.at' x = some (x * (nc * size))) 1 (fun j r => do
        let q ← A3.rd t r i (j - 1)
        let q ← padd (nt * nr * nc * size) q (nc * size)
        A3.wr t r i j q) (nr - 1) r ⟨hlen, fun x hx => hr x (by omega)⟩ (by
      rintro j r ha hj ⟨f1, f2⟩
      have hb : (i * nr + (j - 1)) * (nc * size) + nc * size ≤ nt * nr * nc * size := by
        have := hbnd (i * nr + j) (hidx i j hi (by omega)).le
        have e : i * nr + j = (i * nr + (j - 1)) + 1 := by omega
        rw [e, Nat.add_mul, Nat.one_mul] at this; exact this
      refine ⟨⟨r.len, fun x => if x = i * nr + j then
        some ((i * nr + (j - 1)) * (nc * size) + nc * size) else r.at' x⟩, ?_, f1, ?_⟩
      · rw [hR r i (j - 1) _ f1 hi (by omega) (f2 _ (by omega))]
        simp only [Res.bind_ok]
        rw [padd_ok hb]
        simp only [Res.bind_ok]
        exact hW r i j _ f1 hi (by omega)
      · intro x hx
        dsimp only
        by_cases hxe : x = i * nr + j
        · rw [if_pos hxe, hxe]
          have e : i * nr + j = (i * nr + (j - 1)) + 1 := by omega
          rw [e, Nat.add_mul _ 1, Nat.one_mul]
        · rw [if_neg hxe]; exact f2 x (by omega))
    refine ⟨r', q1, q2, fun x hx => q3 x ?_⟩
    rw [Nat.add_mul, Nat.one_mul] at hx; omega
  rw [hW _ 0 0 0 rfl hnt hnr]
  simp only [Res.bind_ok]
  obtain ⟨r1, g1, g2, g3⟩ := hin ⟨nt * nr, fun x => if x = 0 * nr + 0 then some 0 else none⟩ 0 hnt rfl (by
    intro x hx
    obtain rfl : x = 0 := by omega
    simp)
  rw [g1]
  simp only [Res.bind_ok]
  obtain ⟨r2, l1, l2, l3⟩ := loop_inv (fun m (r : Tab) => r.len = nt * nr ∧
      ∀ x, x < m * nr → r.at' x = some (x * (nc * size))) 1 (fun i r => do
      let q ← A3.rd t r (i - 1) 0
      let q ← padd (nt * nr * nc * size) q (nr * nc * size)
      let r ← A3.wr t r i 0 q
      loop 1 (fun j r => do
        let q ← A3.rd t r i (j - 1)
        let q ← padd (nt * nr * nc * size) q (nc * size)
        A3.wr t r i j q) (nr - 1) r) (nt - 1) r1 ⟨g2, by simpa using g3⟩ (by
    rintro i r ha hi ⟨f1, f2⟩
    have e0 : i * nr = (i - 1) * nr + nr := by
      have : i = (i - 1) + 1 := by omega
      conv_lhs => rw [this, Nat.add_mul, Nat.one_mul]
    have ev : (i - 1) * nr * (nc * size) + nr * nc * size = i * nr * (nc * size) := by
      rw [e0, Nat.add_mul, Nat.mul_assoc nr]
    have hb : (i - 1) * nr * (nc * size) + nr * nc * size ≤ nt * nr * nc * size := by
      rw [ev]; exact hbnd _ (Nat.mul_le_mul_right _ (by omega))
    rw [hR r (i - 1) 0 _ f1 (by omega) hnr (f2 _ (by omega))]
    simp only [Res.bind_ok, Nat.add_zero]
    rw [padd_ok hb]
    simp only [Res.bind_ok]
    rw [hW r i 0 _ f1 (by omega) hnr]
    simp only [Res.bind_ok]
    refine hin ⟨r.len, fun x => if x = i * nr + 0 then some ((i - 1) * nr * (nc * size) + nr * nc * size)
      else r.at' x⟩ i (by omega) f1 ?_
    intro x hx
    dsimp only
    by_cases hxe : x = i * nr + 0
    · rw [if_pos hxe, ev, hxe]; simp
    · rw [if_neg hxe]; exact f2 x (by omega))
  rw [l1]
  refine ⟨⟨t, r2, zeros (nt * nr * nc * size)⟩, rfl, rfl, ?_⟩
  intro i j k hi hj hk
  unfold A3.addr
  have hx := l3 (i * nr + j) (by rw [Nat.add_comm 1, Nat.sub_add_cancel hnt]; exact hidx i j hi hj)
  rw [hR r2 i j _ l2 hi hj hx]
  simp only [Res.bind_ok, Res.pure_eq_ok, Res.ok.injEq]
  ring

/-- Elements at different positions do not share a byte, lie in the block, and together cover it. -/
theorem elements_disjoint (nt nr nc size : ℕ) (hsz : 1 ≤ size) :
    (∀ i j k i' j' k', i < nt → j < nr → k < nc → i' < nt → j' < nr → k' < nc →
      (i, j, k) ≠ (i', j', k') →
      ((i * nr + j) * nc + k) * size + size ≤ ((i' * nr + j') * nc + k') * size ∨
      ((i' * nr + j') * nc + k') * size + size ≤ ((i * nr + j) * nc + k) * size) ∧
    (∀ i j k, i < nt → j < nr → k < nc →
      ((i * nr + j) * nc + k) * size + size ≤ nt * nr * nc * size) ∧
    (∀ b, b < nt * nr * nc * size → ∃ i j k, i < nt ∧ j < nr ∧ k < nc ∧
      ((i * nr + j) * nc + k) * size ≤ b ∧ b < ((i * nr + j) * nc + k) * size + size) := by
  refine ⟨?_, ?_, ?_⟩
  · intro i j k i' j' k' hi hj hk hi' hj' hk' hne
    have step : ∀ a b : ℕ, a < b → a * size + size ≤ b * size := by
      intro a b hab
      calc a * size + size = (a + 1) * size := by ring
        _ ≤ b * size := Nat.mul_le_mul_right _ hab
    rcases Nat.lt_trichotomy ((i * nr + j) * nc + k) ((i' * nr + j') * nc + k') with h | h | h
    · exact Or.inl (step _ _ h)
    · exfalso
      apply hne
      have u : ∀ (a a' m c c' : ℕ), c < m → c' < m → a * m + c = a' * m + c' → a = a' ∧ c = c' := by
        intro a a' m c c' hc hc' e
        have e1 : a = a' := by
          have h1 : (a * m + c) / m = a := by
            rw [Nat.mul_comm, Nat.mul_add_div (by omega), Nat.div_eq_of_lt hc]; omega
          have h2 : (a' * m + c') / m = a' := by
            rw [Nat.mul_comm, Nat.mul_add_div (by omega), Nat.div_eq_of_lt hc']; omega
          rw [← h1, ← h2, e]
        subst e1; exact ⟨rfl, by omega⟩
      obtain ⟨e1, rfl⟩ := u _ _ _ _ _ hk hk' h
      obtain ⟨rfl, rfl⟩ := u _ _ _ _ _ hj hj' e1
      rfl
    · exact Or.inr (step _ _ h)
  · intro i j k hi hj hk
    have h1 : i * nr + j + 1 ≤ nt * nr := by
      have : (i + 1) * nr ≤ nt * nr := Nat.mul_le_mul_right _ hi
      rw [Nat.add_mul, Nat.one_mul] at this; omega
    have h2 : (i * nr + j) * nc + k + 1 ≤ nt * nr * nc := by
      have : (i * nr + j + 1) * nc ≤ nt * nr * nc := Nat.mul_le_mul_right _ h1
      rw [Nat.add_mul, Nat.one_mul] at this; omega
    calc ((i * nr + j) * nc + k) * size + size = ((i * nr + j) * nc + k + 1) * size := by ring
      _ ≤ nt * nr * nc * size := Nat.mul_le_mul_right _ h2
  · intro b hb
    have hq : b / size < nt * nr * nc := (Nat.div_lt_iff_lt_mul hsz).mpr hb
    have hnc : 0 < nc := by
      rcases Nat.eq_zero_or_pos nc with h | h
      · subst h; simp at hq
      · exact h
    have hnr : 0 < nr := by
      rcases Nat.eq_zero_or_pos nr with h | h
      · subst h; simp at hq
      · exact h
    have hq2 : b / size / nc < nt * nr := (Nat.div_lt_iff_lt_mul hnc).mpr hq
    refine ⟨b / size / nc / nr, b / size / nc % nr, b / size % nc,
      (Nat.div_lt_iff_lt_mul hnr).mpr hq2, Nat.mod_lt _ hnr, Nat.mod_lt _ hnc, ?_⟩
    have h1 := Nat.div_add_mod (b / size / nc) nr
    have h2 := Nat.div_add_mod (b / size) nc
    have h3 := Nat.div_add_mod b size
    have h4 := Nat.mod_lt b hsz
    rw [Nat.mul_comm (b / size / nc / nr), h1, Nat.mul_comm (b / size / nc), h2, Nat.mul_comm]
    omega

/-- C49 in the terms of the caller of `calloc_3d_array`: every element is inside the zeroed block, and elements
with different indices have no byte in common. -/
theorem calloc3_no_alias (sys : ℕ → Bool) (nt nr nc size : ℕ) (hnt : 1 ≤ nt) (hnr : 1 ≤ nr) (hsz : 1 ≤ size)
    (hp : nt * nr * 8 < W) (h : nt * nr * nc * size < W) (hs : ∀ n, n < W → sys n = true) :
    ∃ a, calloc3 sys nt nr nc size = .ok a ∧ (∀ b ∈ a.data, b = 0) ∧
      ∀ i j k, i < nt → j < nr → k < nc → ∃ p, a.addr size i j k = .ok p ∧ p + size ≤ a.data.length ∧
        ∀ i' j' k', i' < nt → j' < nr → k' < nc → (i, j, k) ≠ (i', j', k') →
          ∃ p', a.addr size i' j' k' = .ok p' ∧ (p + size ≤ p' ∨ p' + size ≤ p) := by
  obtain ⟨a, h1, h2, h3⟩ := calloc3_ok sys nt nr nc size hnt hnr hsz hp h hs
  obtain ⟨d1, d2, _⟩ := elements_disjoint nt nr nc size hsz
  refine ⟨a, h1, ?_, ?_⟩
  · rw [h2]; exact fun b hb => List.eq_of_mem_replicate hb
  · intro i j k hi hj hk
    refine ⟨_, h3 i j k hi hj hk, ?_, ?_⟩
    · rw [h2, length_zeros]; exact d2 i j k hi hj hk
    · intro i' j' k' hi' hj' hk' hne
      exact ⟨_, h3 i' j' k' hi' hj' hk', d1 i j k i' j' k' hi hj hk hi' hj' hk' hne⟩

/-- The same for `calloc_2d_array`. -/
theorem calloc2_no_alias (sys : ℕ → Bool) (nr nc size : ℕ) (hnr : 1 ≤ nr) (hsz : 1 ≤ size)
    (hp : nr * 8 < W) (h : nr * nc * size < W) (hs : ∀ n, n < W → sys n = true) :
    ∃ a, calloc2 sys nr nc size = .ok a ∧ (∀ b ∈ a.data, b = 0) ∧
      ∀ i j, i < nr → j < nc → ∃ p, a.addr size i j = .ok p ∧ p + size ≤ a.data.length ∧
        ∀ i' j', i' < nr → j' < nc → (i, j) ≠ (i', j') →
          ∃ p', a.addr size i' j' = .ok p' ∧ (p + size ≤ p' ∨ p' + size ≤ p) := by
  obtain ⟨a, h1, h2, h3⟩ := calloc2_ok sys nr nc size hnr hsz hp h hs
  obtain ⟨d1, d2, _⟩ := elements_disjoint 1 nr nc size hsz
  refine ⟨a, h1, ?_, ?_⟩
  · rw [h2]; exact fun b hb => List.eq_of_mem_replicate hb
  · intro i j hi hj
    refine ⟨_, h3 i j hi hj, ?_, ?_⟩
    · rw [h2, length_zeros]; simpa using d2 0 i j one_pos hi hj
    · intro i' j' hi' hj' hne
      refine ⟨_, h3 i' j' hi' hj', ?_⟩
      simpa using d1 0 i j 0 i' j' one_pos hi hj one_pos hi' hj' (by simpa using hne)

/-- The hypothesis on sizes is needed: with a first dimension of zero the pointer is stored outside its
table, and products that wrap give a block too small for the elements. -/
theorem calloc2_zero_false : ∃ sys, (∀ n, n < W → sys n = true) ∧ calloc2 sys 0 4 8 = .ub :=
  ⟨fun _ => true, fun _ _ => rfl, rfl⟩

/-- 2^33 rows of 2^31 bytes: the product is taken modulo 2^64 before `calloc` can see that it is too large, so
the call "succeeds" with an empty block, and the second row pointer is already outside. -/
theorem calloc2_wrap_false : ∃ (sys : ℕ → Bool) (nr nc size : ℕ), (∀ n, n < W → sys n = true) ∧
    nr * 8 < W ∧ calloc sys (nr * nc % W) size = .ok [] ∧ nr > 1 ∧ nc > 0 ∧ size > 0 :=
  ⟨fun _ => true, 2 ^ 33, 2 ^ 31, 1, fun _ _ => rfl, by norm_num [W], by
    have : (2 ^ 33 * 2 ^ 31 : ℕ) % W = 0 := by norm_num [W]
    rw [this]; rfl, by norm_num, by norm_num, by norm_num⟩

/-! The hypotheses are met: a 3 x 2 x 5 array of doubles. -/
example : ∃ a, calloc3 (fun _ => true) 3 2 5 8 = .ok a ∧ a.data = zeros 240 ∧
    a.addr 8 2 1 4 = .ok 232 := by
  obtain ⟨a, h1, h2, h3⟩ := calloc3_ok (fun _ => true) 3 2 5 8 (by norm_num) (by norm_num) (by norm_num)
    (by norm_num [W]) (by norm_num [W]) (fun _ _ => rfl)
  exact ⟨a, h1, h2, h3 2 1 4 (by norm_num) (by norm_num) (by norm_num)⟩

end Athena.Arr
