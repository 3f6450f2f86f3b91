import Verif.Recon.Props2

/-!
# Properties of the reconstruction (C36), continued: third order schemes; counterexamples; special relativity (C61)
-/

namespace Athena.Recon
noncomputable section
open Athena.Hydro

variable {k ns : ℕ}

/-! ## Third order, primitive variables -/

/-- `Whalf[i]` in `lr_states_prim3.c`. -/
def wh3 (W : ℤ → Vec k ns) (i : ℤ) : Vec k ns := fun n => half3 (W (i - 2) n) (W (i - 1) n) (W i n) (W (i + 1) n)

/-- `Wlv`, `Wrv` of zone `i` in `lr_states_prim3.c`. -/
def z3 (W : ℤ → Vec k ns) (i : ℤ) : Vec k ns × Vec k ns :=
  (fun n => (prim3Zone (W (i - 2) n) (W (i - 1) n) (W i n) (W (i + 1) n) (W (i + 2) n) (wh3 W i n) (wh3 W (i + 1) n)).1,
   fun n => (prim3Zone (W (i - 2) n) (W (i - 1) n) (W i n) (W (i + 1) n) (W (i + 2) n) (wh3 W i n) (wh3 W (i + 1) n)).2)

/-- What `lr_states_prim3.c` stores for zone `i`. -/
def out3 (cf : Cfg) (es : Vec k ns → ℝ → Eig k) (q : ℝ) (W : ℤ → Vec k ns) (Bxc : ℤ → ℝ) (i : ℤ) : Vec k ns × Vec k ns :=
  if cf.ctu then prim3Trace cf.hll q (es (W i) (Bxc i)) (vx (W i)) (W i) (z3 W i).1 (z3 W i).2 else ((z3 W i).2, (z3 W i).1)

theorem forLoop_congr {σ : Type} (lo hi : ℤ) (f g : ℤ → σ → σ) (s : σ) (h : ∀ i s, lo ≤ i → i ≤ hi → f i s = g i s) :
    forLoop lo hi f s = forLoop lo hi g s := by
  unfold forLoop
  have : ∀ l : List ℕ, (∀ m ∈ l, lo + (m : ℤ) ≤ hi) → ∀ s, l.foldl (fun s (m : ℕ) => f (lo + m) s) s = l.foldl (fun s (m : ℕ) => g (lo + m) s) s := by
    intro l
    induction l with
    | nil => intros; rfl
    | cons m l ih =>
      intro hm s
      simp only [List.foldl_cons]
      rw [h _ _ (by omega) (hm m (by simp)), ih (fun x hx => hm x (by simp [hx]))]
  exact this _ (fun m hm => by rw [List.mem_range] at hm; omega) s

theorem prim3_states (cf : Cfg) (es : Vec k ns → ℝ → Eig k) (q : ℝ) (W : ℤ → Vec k ns) (Bxc : ℤ → ℝ) (il iu : ℤ) (Wh : ℤ → Vec k ns)
    (o : Out k ns) (i : ℤ) (h1 : il ≤ i) (h2 : i ≤ iu + 1) :
    (lrPrim3 cf es q W Bxc il iu Wh o).Wl i = (out3 cf es q W Bxc (i - 1)).1 ∧
    (lrPrim3 cf es q W Bxc il iu Wh o).Wr i = (out3 cf es q W Bxc i).2 := by
  have := forLoop_put (out3 cf es q W Bxc) (il - 1) (iu + 1) o i
  rw [if_pos (by omega), if_pos (by omega)] at this
  rw [← this.1, ← this.2]
  unfold lrPrim3
  dsimp only
  rw [forLoop_congr (il - 1) (iu + 1) _ (fun i o => o.put i (out3 cf es q W Bxc i)) o]
  · exact ⟨rfl, rfl⟩
  · intro j s a b
    rw [forLoop_upd (fun i n => half3 (W (i - 2) n) (W (i - 1) n) (W i n) (W (i + 1) n)),
      forLoop_upd (fun i n => half3 (W (i - 2) n) (W (i - 1) n) (W i n) (W (i + 1) n)), if_pos (show il - 1 ≤ j ∧ j ≤ iu + 2 by omega),
      if_pos (show il - 1 ≤ j + 1 ∧ j + 1 ≤ iu + 2 by omega)]
    rfl

/-- C36: no new extrema, third order primitive reconstruction with the van Leer integrator. -/
theorem prim3_bounded (cf : Cfg) (hc : cf.ctu = false) (es : Vec k ns → ℝ → Eig k) (q : ℝ) (W : ℤ → Vec k ns) (Bxc : ℤ → ℝ) (il iu : ℤ)
    (Wh : ℤ → Vec k ns) (o : Out k ns) : Bounded W il iu (lrPrim3 cf es q W Bxc il iu Wh o) := by
  intro i h1 h2 n
  rw [(prim3_states cf es q W Bxc il iu Wh o i h1 h2).1, (prim3_states cf es q W Bxc il iu Wh o i h1 h2).2]
  simp only [out3, hc, Bool.false_eq_true, if_false, z3, prim3Zone]
  rw [show i - 1 + 1 = i by ring]
  exact ⟨clip_between _ _ _, (clip_between _ _ _).symm⟩

theorem mono3_same (c x y : ℝ) (h : x = c ∨ y = c) : mono3 c x y = (c, c) := by
  unfold mono3
  dsimp only
  rw [if_pos]
  rcases h with rfl | rfl <;> simp

theorem prim3Zone_same (c x y : ℝ) : prim3Zone c c c c c x y = (c, c) := by
  unfold prim3Zone
  simp only [clip_same]

theorem prim3Trace_uniform (hll : Bool) (q : ℝ) (E : Eig k) (v : ℝ) (w : Vec k ns) : prim3Trace hll q E v w w w = (w, w) := by
  have e : ∀ x : ℝ, 1/2 * (x + x) = x := fun x => by ring
  unfold prim3Trace
  ext n <;> cases n <;> simp only [sub_self, e, mul_zero, add_zero, sub_zero, zero_add, waves_zero, implies_true, ite_self]

/-- C36: uniform data are reproduced. -/
theorem prim3_uniform (cf : Cfg) (es : Vec k ns → ℝ → Eig k) (q : ℝ) (W : ℤ → Vec k ns) (Bxc : ℤ → ℝ) (il iu : ℤ) (Wh : ℤ → Vec k ns)
    (o : Out k ns) (i : ℤ) (h1 : il ≤ i) (h2 : i ≤ iu + 1) (w : Vec k ns) (hW : ∀ j, i - 3 ≤ j → j ≤ i + 2 → W j = w) :
    (lrPrim3 cf es q W Bxc il iu Wh o).Wl i = w ∧ (lrPrim3 cf es q W Bxc il iu Wh o).Wr i = w := by
  rw [(prim3_states cf es q W Bxc il iu Wh o i h1 h2).1, (prim3_states cf es q W Bxc il iu Wh o i h1 h2).2]
  have key : ∀ j, i - 1 ≤ j → j ≤ i → z3 W j = (w, w) := by
    intro j h1 h2
    unfold z3
    rw [hW (j - 2) (by omega) (by omega), hW (j - 1) (by omega) (by omega), hW j (by omega) (by omega), hW (j + 1) (by omega) (by omega),
      hW (j + 2) (by omega) (by omega)]
    simp only [prim3Zone_same]
  unfold out3
  rw [key _ (by omega) (by omega), key _ (by omega) (by omega), hW _ (by omega) (by omega), hW _ (by omega) (by omega)]
  simp only [prim3Trace_uniform]
  split_ifs <;> exact ⟨rfl, rfl⟩

theorem half3_linear (a s : ℝ) : half3 a (a + s) (a + 2 * s) (a + 3 * s) = a + 3/2 * s := by
  unfold half3
  have e : 3 * (a + s - 2 * ((7 * (a + s + (a + 2 * s)) - (a + (a + 3 * s))) / 12) + (a + 2 * s)) = 0 := by ring
  simp only [e, lt_irrefl, gt_iff_lt, false_and, if_false]
  ring

theorem mono3_linear (c s : ℝ) : mono3 c (c - 1/2 * s) (c + 1/2 * s) = (c - 1/2 * s, c + 1/2 * s) := by
  by_cases hs : s = 0
  · subst hs; simp [mono3]
  · unfold mono3
    dsimp only
    have h0 : 0 < s * s := mul_self_pos.mpr hs
    have e : 6 * (c - 1/2 * (c - 1/2 * s + (c + 1/2 * s))) = 0 := by ring
    have e' : c + 1/2 * s - (c - 1/2 * s) = s := by ring
    rw [e, e', if_neg (by nlinarith), if_neg (by nlinarith), if_neg (by nlinarith)]

/-- C36: linear profiles are reproduced exactly. -/
theorem prim3_linear (cf : Cfg) (hc : cf.ctu = false) (es : Vec k ns → ℝ → Eig k) (q : ℝ) (W : ℤ → Vec k ns) (Bxc : ℤ → ℝ) (il iu : ℤ)
    (Wh : ℤ → Vec k ns) (o : Out k ns) (i : ℤ) (h1 : il ≤ i) (h2 : i ≤ iu + 1) (n) (c s : ℝ)
    (hW : ∀ j, i - 3 ≤ j → j ≤ i + 2 → W j n = c + s * j) :
    (lrPrim3 cf es q W Bxc il iu Wh o).Wl i n = c + s * (i - 1/2) ∧ (lrPrim3 cf es q W Bxc il iu Wh o).Wr i n = c + s * (i - 1/2) := by
  rw [(prim3_states cf es q W Bxc il iu Wh o i h1 h2).1, (prim3_states cf es q W Bxc il iu Wh o i h1 h2).2]
  simp only [out3, hc, Bool.false_eq_true, if_false]
  have hh : ∀ j, i - 1 ≤ j → j ≤ i + 1 → wh3 W j n = c + s * (j - 1/2) := by
    intro j a b
    unfold wh3
    rw [hW _ (by omega) (by omega), hW _ (by omega) (by omega), hW _ (by omega) (by omega), hW _ (by omega) (by omega)]
    have := half3_linear (c + s * ((j - 2 : ℤ) : ℝ)) s
    push_cast at this ⊢
    rw [show c + s * ((j : ℝ) - 1) = c + s * ((j : ℝ) - 2) + s by ring, show c + s * (j : ℝ) = c + s * ((j : ℝ) - 2) + 2 * s by ring,
      show c + s * ((j : ℝ) + 1) = c + s * ((j : ℝ) - 2) + 3 * s by ring, this]
    ring
  have key : ∀ j, i - 1 ≤ j → j ≤ i → (z3 W j).1 n = c + s * (j - 1/2) ∧ (z3 W j).2 n = c + s * (j + 1/2) := by
    intro j hj1 hj2
    unfold z3
    dsimp only
    rw [hh j (by omega) (by omega), hh (j + 1) (by omega) (by omega), hW (j - 2) (by omega) (by omega), hW (j - 1) (by omega) (by omega),
      hW j (by omega) (by omega), hW (j + 1) (by omega) (by omega), hW (j + 2) (by omega) (by omega)]
    push_cast
    rw [show c + s * ((j : ℝ) - 1/2) = (c + s * j) - 1/2 * s by ring, show c + s * ((j : ℝ) + 1 - 1/2) = (c + s * j) + 1/2 * s by ring,
      show c + s * ((j : ℝ) + 1/2) = (c + s * j) + 1/2 * s by ring]
    have hp : parab3 (c + s * ((j : ℝ) - 2)) (c + s * ((j : ℝ) - 1)) (c + s * j) (c + s * ((j : ℝ) + 1)) (c + s * ((j : ℝ) + 2))
        (c + s * j - 1/2 * s) (c + s * j + 1/2 * s) = (c + s * j - 1/2 * s, c + s * j + 1/2 * s) := by
      unfold parab3
      dsimp only
      by_cases hs : s = 0
      · subst hs; simp
      · have h0 : 0 < s * s := mul_self_pos.mpr hs
        rw [if_neg]
        intro h
        nlinarith [h.1]
    unfold prim3Zone
    rw [hp]
    dsimp only
    rw [mono3_linear, clip_id, clip_id]
    · exact ⟨rfl, rfl⟩
    · rw [show c + s * (j : ℝ) + 1/2 * s = (c + s * (j : ℝ)) + 1/2 * ((c + s * ((j : ℝ) + 1)) - (c + s * (j : ℝ))) by ring]
      exact between_lerp (by norm_num) (by norm_num)
    · rw [show c + s * (j : ℝ) - 1/2 * s = (c + s * (j : ℝ)) + 1/2 * ((c + s * ((j : ℝ) - 1)) - (c + s * (j : ℝ))) by ring]
      exact between_lerp (by norm_num) (by norm_num)
  rw [(key (i - 1) (by omega) (by omega)).2, (key i (by omega) (by omega)).1]
  push_cast
  constructor <;> ring

/-- C36: stencil of the third order primitive reconstruction. -/
theorem prim3_stencil (cf : Cfg) (es : Vec k ns → ℝ → Eig k) (q : ℝ) (Wh : ℤ → Vec k ns) :
    StencilL (k := k) (ns := ns) 3 (fun W Bxc il iu o => lrPrim3 cf es q W Bxc il iu Wh o) := by
  intro W W' Bxc Bxc' il iu il' iu' o o' i t h1 h2 h3 h4 h
  dsimp only
  rw [(prim3_states cf es q W Bxc il iu Wh o i h1 h2).1, (prim3_states cf es q W Bxc il iu Wh o i h1 h2).2,
    (prim3_states cf es q W' Bxc' il' iu' Wh o' _ h3 h4).1, (prim3_states cf es q W' Bxc' il' iu' Wh o' _ h3 h4).2]
  have key : ∀ j, i - 1 ≤ j → j ≤ i → out3 cf es q W Bxc j = out3 cf es q W' Bxc' (j + t) := by
    intro j h1 h2
    unfold out3 z3 wh3
    rw [(h j (by omega) (by omega)).1, (h j (by omega) (by omega)).2, (h (j - 1) (by omega) (by omega)).1,
      (h (j + 1) (by omega) (by omega)).1, (h (j - 2) (by omega) (by omega)).1, (h (j + 2) (by omega) (by omega)).1,
      (h (j + 1 - 2) (by omega) (by omega)).1, (h (j + 1 - 1) (by omega) (by omega)).1, (h (j + 1 + 1) (by omega) (by omega)).1,
      show j - 1 + t = j + t - 1 by ring, show j + 1 + t = j + t + 1 by ring, show j - 2 + t = j + t - 2 by ring,
      show j + 2 + t = j + t + 2 by ring, show j + 1 - 2 + t = j + t + 1 - 2 by ring, show j + 1 - 1 + t = j + t + 1 - 1 by ring,
      show j + 1 + 1 + t = j + t + 1 + 1 by ring]
  rw [key (i - 1) (by omega) (by omega), key i (by omega) (by omega), show i - 1 + t = i + t - 1 by ring]
  exact ⟨rfl, rfl⟩

/-! ## Third order, characteristic variables -/

/-- Limited slopes of zone `i` in `lr_states_ppm.c`. -/
def dmP (es : Vec k ns → ℝ → Eig k) (W : ℤ → Vec k ns) (Bxc : ℤ → ℝ) (i : ℤ) : Vec k ns :=
  charSlope (es (W i) (Bxc i)) (W (i - 1)) (W i) (W (i + 1))

/-- Interface value `i-1/2` in `lr_states_ppm.c`. -/
def whP (es : Vec k ns → ℝ → Eig k) (W : ℤ → Vec k ns) (Bxc : ℤ → ℝ) (i : ℤ) : Vec k ns :=
  fun n => ppmHalf (W (i - 1) n) (W i n) (dmP es W Bxc (i - 1) n) (dmP es W Bxc i n)

/-- `Wlv`, `Wrv` of zone `i` in `lr_states_ppm.c`. -/
def zP (es : Vec k ns → ℝ → Eig k) (W : ℤ → Vec k ns) (Bxc : ℤ → ℝ) (i : ℤ) : Vec k ns × Vec k ns :=
  (fun n => clip (W i n) (W (i - 1) n) (mono3 (W i n) (whP es W Bxc i n) (whP es W Bxc (i + 1) n)).1,
   fun n => clip (W i n) (W (i + 1) n) (mono3 (W i n) (whP es W Bxc i n) (whP es W Bxc (i + 1) n)).2)

/-- What `lr_states_ppm.c` stores for zone `i`. -/
def outP (cf : Cfg) (es : Vec k ns → ℝ → Eig k) (q : ℝ) (W : ℤ → Vec k ns) (Bxc : ℤ → ℝ) (i : ℤ) : Vec k ns × Vec k ns :=
  if cf.ctu then ppmTrace cf.hll q (es (W i) (Bxc i)) (vx (W i)) (W i) (zP es W Bxc i).1 (zP es W Bxc i).2
  else ((zP es W Bxc i).2, (zP es W Bxc i).1)

/-- The work arrays and the eigensystem carried from one zone to the next are the right ones. -/
theorem ppm_states (cf : Cfg) (es : Vec k ns → ℝ → Eig k) (q : ℝ) (W : ℤ → Vec k ns) (Bxc : ℤ → ℝ) (il iu : ℤ) (s : PpmSt k ns) (i : ℤ)
    (h1 : il ≤ i) (h2 : i ≤ iu + 1) : (lrPpm cf es q W Bxc il iu s).o.Wl i = (outP cf es q W Bxc (i - 1)).1 ∧
      (lrPpm cf es q W Bxc il iu s).o.Wr i = (outP cf es q W Bxc i).2 := by
  have put := forLoop_put (outP cf es q W Bxc) (il - 1) (iu + 1) s.o i
  rw [if_pos (by omega), if_pos (by omega)] at put
  rw [← put.1, ← put.2]
  have first : forLoop (il - 2) (il - 1) (ppmFirst es W Bxc) s = ppmFirst es W Bxc (il - 1) (ppmFirst es W Bxc (il - 2) s) := by
    have a := forLoop_step (il - 2) (il - 2) (ppmFirst es W Bxc) s (by omega)
    have b := forLoop_step (il - 2) (il - 2 - 1) (ppmFirst es W Bxc) s (by omega)
    rw [forLoop_empty _ (il - 2 - 1) _ _ (by omega)] at b
    rw [show il - 2 - 1 + 1 = il - 2 by ring] at b
    rw [show il - 2 + 1 = il - 1 by ring, b] at a
    exact a
  have key := forLoop_ind (il - 1) (ppmBody cf es q W Bxc)
    ({ ppmFirst es W Bxc (il - 1) (ppmFirst es W Bxc (il - 2) s) with
      Wim1h := upd s.Wim1h (il - 1) (whP es W Bxc (il - 1)) } : PpmSt k ns)
    (fun i s' => s'.E = es (W i) (Bxc i) ∧ s'.dWm i = dmP es W Bxc i ∧ s'.Wim1h i = whP es W Bxc i ∧
      s'.o = forLoop (il - 1) (i - 1) (fun i o => o.put i (outP cf es q W Bxc i)) s.o)
    ⟨rfl, by simp [ppmFirst, upd, dmP], by simp [upd], by rw [forLoop_empty _ _ _ _ (by omega)]; rfl⟩
    (fun i s' hi ⟨a, b, c, d⟩ => by
      have e1 : charSlope (es (W (i + 1)) (Bxc (i + 1))) (W i) (W (i + 1)) (W (i + 2)) = dmP es W Bxc (i + 1) := by
        unfold dmP; rw [show i + 1 - 1 = i by ring, show i + 1 + 1 = i + 2 by ring]
      have ne : i ≠ i + 1 := by omega
      have e2 : (fun n => ppmHalf (W i n) (W (i + 1) n) (dmP es W Bxc i n) (dmP es W Bxc (i + 1) n)) = whP es W Bxc (i + 1) := by
        unfold whP; rw [show i + 1 - 1 = i by ring]
      refine ⟨rfl, ?_, ?_, ?_⟩
      · simp only [ppmBody, upd, if_true, e1]
      · simp only [ppmBody, upd, if_true, e1, if_neg ne, b, e2]
      · have st := forLoop_step (il - 1) (i - 1) (fun i o => o.put i (outP cf es q W Bxc i)) s.o (by omega)
        rw [show i - 1 + 1 = i by ring] at st
        rw [show i + 1 - 1 = i by ring, st, ← d]
        simp only [ppmBody, upd, if_true, e1, if_neg ne, b, e2, a, c]
        rfl) (iu + 1) (by omega)
  have e : lrPpm cf es q W Bxc il iu s = forLoop (il - 1) (iu + 1) (ppmBody cf es q W Bxc)
    ({ ppmFirst es W Bxc (il - 1) (ppmFirst es W Bxc (il - 2) s) with
      Wim1h := upd s.Wim1h (il - 1) (whP es W Bxc (il - 1)) } : PpmSt k ns) := by
    unfold lrPpm
    rw [first]
    dsimp only
    congr 2
    have n1 : il - 2 ≠ il - 1 := by omega
    simp only [ppmFirst, upd, if_true, if_neg n1]
    have e3 : charSlope (es (W (il - 2)) (Bxc (il - 2))) (W (il - 2 - 1)) (W (il - 2)) (W (il - 2 + 1)) = dmP es W Bxc (il - 1 - 1) := by
      unfold dmP; rw [show il - 1 - 1 = il - 2 by ring]
    have e4 : charSlope (es (W (il - 1)) (Bxc (il - 1))) (W (il - 1 - 1)) (W (il - 1)) (W (il - 1 + 1)) = dmP es W Bxc (il - 1) := rfl
    rw [e3, e4]
    unfold whP
    rw [show il - 1 - 1 = il - 2 by ring]
  rw [e, key.2.2.2, show iu + 1 + 1 - 1 = iu + 1 by ring]
  exact ⟨rfl, rfl⟩

/-- C36: no new extrema, PPM with the van Leer integrator. -/
theorem ppm_bounded (cf : Cfg) (hc : cf.ctu = false) (es : Vec k ns → ℝ → Eig k) (q : ℝ) (W : ℤ → Vec k ns) (Bxc : ℤ → ℝ) (il iu : ℤ)
    (s : PpmSt k ns) : Bounded W il iu (lrPpm cf es q W Bxc il iu s).o := by
  intro i h1 h2 n
  rw [(ppm_states cf es q W Bxc il iu s i h1 h2).1, (ppm_states cf es q W Bxc il iu s i h1 h2).2]
  simp only [outP, hc, Bool.false_eq_true, if_false, zP]
  rw [show i - 1 + 1 = i by ring]
  exact ⟨clip_between _ _ _, (clip_between _ _ _).symm⟩

theorem ppmTrace_uniform (hll : Bool) (q : ℝ) (E : Eig k) (v : ℝ) (w : Vec k ns) : ppmTrace hll q E v w w w = (w, w) := by
  have e : ∀ x : ℝ, 1/2 * (x + x) = x := fun x => by ring
  unfold ppmTrace
  ext n <;> cases n <;> simp only [sub_self, e, mul_zero, add_zero, sub_zero, zero_add, waves_zero, implies_true, ite_self]

/-- C36: uniform data are reproduced. -/
theorem ppm_uniform (cf : Cfg) (es : Vec k ns → ℝ → Eig k) (q : ℝ) (W : ℤ → Vec k ns) (Bxc : ℤ → ℝ) (il iu : ℤ) (s : PpmSt k ns) (i : ℤ)
    (h1 : il ≤ i) (h2 : i ≤ iu + 1) (w : Vec k ns) (hW : ∀ j, i - 3 ≤ j → j ≤ i + 2 → W j = w) :
    (lrPpm cf es q W Bxc il iu s).o.Wl i = w ∧ (lrPpm cf es q W Bxc il iu s).o.Wr i = w := by
  rw [(ppm_states cf es q W Bxc il iu s i h1 h2).1, (ppm_states cf es q W Bxc il iu s i h1 h2).2]
  have key : ∀ j, i - 1 ≤ j → j ≤ i → zP es W Bxc j = (w, w) := by
    intro j h1 h2
    unfold zP
    rw [hW (j - 1) (by omega) (by omega), hW j (by omega) (by omega), hW (j + 1) (by omega) (by omega)]
    simp only [clip_same]
  unfold outP
  rw [key _ (by omega) (by omega), key _ (by omega) (by omega), hW _ (by omega) (by omega), hW _ (by omega) (by omega)]
  simp only [ppmTrace_uniform]
  split_ifs <;> exact ⟨rfl, rfl⟩

/-- C36: linear data (all variables) are reproduced exactly by PPM when the left and right eigenvectors are inverse to each other. -/
theorem ppm_linear (cf : Cfg) (hc : cf.ctu = false) (es : Vec k ns → ℝ → Eig k) (q : ℝ) (W : ℤ → Vec k ns) (Bxc : ℤ → ℝ) (il iu : ℤ)
    (st : PpmSt k ns) (i : ℤ) (h1 : il ≤ i) (h2 : i ≤ iu + 1) (c s : Vec k ns) (hE : ∀ j, i - 2 ≤ j → j ≤ i + 1 → (es (W j) (Bxc j)).Inv)
    (hW : ∀ j, i - 3 ≤ j → j ≤ i + 2 → W j = fun n => c n + s n * j) (n) :
    (lrPpm cf es q W Bxc il iu st).o.Wl i n = c n + s n * (i - 1/2) ∧ (lrPpm cf es q W Bxc il iu st).o.Wr i n = c n + s n * (i - 1/2) := by
  rw [(ppm_states cf es q W Bxc il iu st i h1 h2).1, (ppm_states cf es q W Bxc il iu st i h1 h2).2]
  simp only [outP, hc, Bool.false_eq_true, if_false]
  have hd : ∀ j, i - 2 ≤ j → j ≤ i + 1 → dmP es W Bxc j = s := by
    intro j hj1 hj2
    have e := charSlope_linear (es (W j) (Bxc j)) (hE j hj1 hj2) (W (j - 1)) s
    have ej : W j = fun n => W (j - 1) n + s n := by
      rw [hW j (by omega) (by omega), hW (j - 1) (by omega) (by omega)]; funext n; push_cast; ring
    have ej' : W (j + 1) = fun n => W (j - 1) n + 2 * s n := by
      rw [hW (j + 1) (by omega) (by omega), hW (j - 1) (by omega) (by omega)]; funext n; push_cast; ring
    rw [← ej, ← ej'] at e
    exact e
  have hh : ∀ j, i - 1 ≤ j → j ≤ i + 1 → whP es W Bxc j n = c n + s n * (j - 1/2) := by
    intro j a b
    unfold whP ppmHalf
    rw [hd j (by omega) (by omega), hd (j - 1) (by omega) (by omega), hW j (by omega) (by omega), hW (j - 1) (by omega) (by omega)]
    push_cast
    ring
  have key : ∀ j, i - 1 ≤ j → j ≤ i → (zP es W Bxc j).1 n = c n + s n * (j - 1/2) ∧ (zP es W Bxc j).2 n = c n + s n * (j + 1/2) := by
    intro j hj1 hj2
    unfold zP
    dsimp only
    rw [hh j (by omega) (by omega), hh (j + 1) (by omega) (by omega), hW (j - 1) (by omega) (by omega),
      hW j (by omega) (by omega), hW (j + 1) (by omega) (by omega)]
    push_cast
    rw [show c n + s n * ((j : ℝ) - 1/2) = (c n + s n * j) - 1/2 * s n by ring,
      show c n + s n * ((j : ℝ) + 1 - 1/2) = (c n + s n * j) + 1/2 * s n by ring,
      show c n + s n * ((j : ℝ) + 1/2) = (c n + s n * j) + 1/2 * s n by ring, mono3_linear, clip_id, clip_id]
    · exact ⟨rfl, rfl⟩
    · rw [show c n + s n * (j : ℝ) + 1/2 * s n = (c n + s n * (j : ℝ)) + 1/2 * ((c n + s n * ((j : ℝ) + 1)) - (c n + s n * (j : ℝ))) by ring]
      exact between_lerp (by norm_num) (by norm_num)
    · rw [show c n + s n * (j : ℝ) - 1/2 * s n = (c n + s n * (j : ℝ)) + 1/2 * ((c n + s n * ((j : ℝ) - 1)) - (c n + s n * (j : ℝ))) by ring]
      exact between_lerp (by norm_num) (by norm_num)
  rw [(key (i - 1) (by omega) (by omega)).2, (key i (by omega) (by omega)).1]
  push_cast
  constructor <;> ring

/-- C36: stencil of PPM; the previous contents of the work arrays do not matter. -/
theorem ppm_stencil (cf : Cfg) (es : Vec k ns → ℝ → Eig k) (q : ℝ) (st : Out k ns → PpmSt k ns) :
    StencilL (k := k) (ns := ns) 3 (fun W Bxc il iu o => (lrPpm cf es q W Bxc il iu (st o)).o) := by
  intro W W' Bxc Bxc' il iu il' iu' o o' i t h1 h2 h3 h4 h
  dsimp only
  rw [(ppm_states cf es q W Bxc il iu (st o) i h1 h2).1, (ppm_states cf es q W Bxc il iu (st o) i h1 h2).2,
    (ppm_states cf es q W' Bxc' il' iu' (st o') _ h3 h4).1, (ppm_states cf es q W' Bxc' il' iu' (st o') _ h3 h4).2]
  have hd : ∀ j, i - 2 ≤ j → j ≤ i + 1 → dmP es W Bxc j = dmP es W' Bxc' (j + t) := by
    intro j h1 h2
    unfold dmP
    rw [(h j (by omega) (by omega)).1, (h j (by omega) (by omega)).2, (h (j - 1) (by omega) (by omega)).1,
      (h (j + 1) (by omega) (by omega)).1, show j - 1 + t = j + t - 1 by ring, show j + 1 + t = j + t + 1 by ring]
  have hw : ∀ j, i - 1 ≤ j → j ≤ i + 1 → whP es W Bxc j = whP es W' Bxc' (j + t) := by
    intro j h1 h2
    unfold whP
    rw [hd j (by omega) (by omega), hd (j - 1) (by omega) (by omega), (h j (by omega) (by omega)).1, (h (j - 1) (by omega) (by omega)).1,
      show j - 1 + t = j + t - 1 by ring]
  have key : ∀ j, i - 1 ≤ j → j ≤ i → outP cf es q W Bxc j = outP cf es q W' Bxc' (j + t) := by
    intro j h1 h2
    unfold outP zP
    rw [hw j (by omega) (by omega), hw (j + 1) (by omega) (by omega), (h j (by omega) (by omega)).1, (h j (by omega) (by omega)).2,
      (h (j - 1) (by omega) (by omega)).1, (h (j + 1) (by omega) (by omega)).1, show j - 1 + t = j + t - 1 by ring,
      show j + 1 + t = j + t + 1 by ring]
  rw [key (i - 1) (by omega) (by omega), key i (by omega) (by omega), show i - 1 + t = i + t - 1 by ring]
  exact ⟨rfl, rfl⟩

/-! ## Third order, compact stencil -/

/-- What `lr_states_p3c.c` stores for zone `i`. -/
def outC (limo3 : Bool) (dx : ℝ) (W : ℤ → Vec k ns) (i : ℤ) : Vec k ns × Vec k ns :=
  let dWl : Vec k ns := fun n => W i n - W (i - 1) n
  let dWr : Vec k ns := fun n => W (i + 1) n - W i n
  let eta : Vec k ns := fun n => (dWl n * dWl n + dWr n * dWr n) / ((1/10 * dx) * (1/10 * dx))
  let lm (away towards : Vec k ns) (n) : ℝ :=
    if limo3 then limO3 (theta (away n) (towards n)) (eta n) else koren (theta (away n) (towards n))
  (fun n => W i n + lm dWl dWr n * dWr n, fun n => W i n - lm dWr dWl n * dWl n)

theorem p3c_states (limo3 : Bool) (dx : ℝ) (W : ℤ → Vec k ns) (il iu : ℤ) (o : Out k ns) (i : ℤ)
    (h1 : il ≤ i) (h2 : i ≤ iu + 1) : (lrP3c limo3 dx W il iu o).Wl i = (outC limo3 dx W (i - 1)).1 ∧
      (lrP3c limo3 dx W il iu o).Wr i = (outC limo3 dx W i).2 := by
  have := forLoop_put (outC limo3 dx W) (il - 1) (iu + 1) o i
  rw [if_pos (by omega), if_pos (by omega)] at this
  exact this

theorem p3c_between (limo3 : Bool) (dx : ℝ) (W : ℤ → Vec k ns) (i : ℤ) (n)
    (h : limo3 = true → ((W i n - W (i - 1) n) * (W i n - W (i - 1) n) + (W (i + 1) n - W i n) * (W (i + 1) n - W i n)) /
      ((1/10 * dx) * (1/10 * dx)) ≥ 1) :
    Between (W i n) (W (i + 1) n) ((outC limo3 dx W i).1 n) ∧ Between (W i n) (W (i - 1) n) ((outC limo3 dx W i).2 n) := by
  unfold outC
  dsimp only
  rw [show ∀ x, W i n - x * (W i n - W (i - 1) n) = W i n + x * (W (i - 1) n - W i n) from fun x => by ring]
  cases limo3 with
  | false =>
    simp only [Bool.false_eq_true, if_false]
    exact ⟨between_lerp (koren_spec _).1 (koren_spec _).2, between_lerp (koren_spec _).1 (koren_spec _).2⟩
  | true =>
    simp only [if_true]
    have h := h rfl
    exact ⟨between_lerp (limO3_spec h).1 (limO3_spec h).2, between_lerp (limO3_spec h).1 (limO3_spec h).2⟩

/-- C36: no new extrema with the Koren limiter. -/
theorem koren_bounded (dx : ℝ) (W : ℤ → Vec k ns) (il iu : ℤ) (o : Out k ns) : Bounded W il iu (lrP3c false dx W il iu o) := by
  intro i h1 h2 n
  rw [(p3c_states false dx W il iu o i h1 h2).1, (p3c_states false dx W il iu o i h1 h2).2]
  have a := (p3c_between false dx W (i - 1) n (by simp)).1
  rw [show i - 1 + 1 = i by ring] at a
  exact ⟨a, (p3c_between false dx W i n (by simp)).2.symm⟩

/-- C36 (partial): with the LimO3 limiter there are no new extrema at the interfaces where the data vary by more than a tenth of the zone size
in both adjacent zones.  Missing: interfaces with smaller variation, where the scheme is not limited (`limO3_false`). -/
theorem limO3_bounded_partial (dx : ℝ) (hdx : 0 < dx) (W : ℤ → Vec k ns) (il iu : ℤ) (o : Out k ns) (i : ℤ) (h1 : il ≤ i) (h2 : i ≤ iu + 1) (n)
    (hl : (W (i - 1) n - W (i - 2) n) ^ 2 + (W i n - W (i - 1) n) ^ 2 ≥ (dx / 10) ^ 2)
    (hr : (W i n - W (i - 1) n) ^ 2 + (W (i + 1) n - W i n) ^ 2 ≥ (dx / 10) ^ 2) :
    Between (W (i - 1) n) (W i n) ((lrP3c true dx W il iu o).Wl i n) ∧ Between (W (i - 1) n) (W i n) ((lrP3c true dx W il iu o).Wr i n) := by
  rw [(p3c_states true dx W il iu o i h1 h2).1, (p3c_states true dx W il iu o i h1 h2).2]
  have hp : 0 < (1/10 * dx) * (1/10 * dx) := by positivity
  have a := (p3c_between true dx W (i - 1) n (fun _ => by
    rw [ge_iff_le, one_le_div hp, show i - 1 - 1 = i - 2 by ring, show i - 1 + 1 = i by ring]; nlinarith)).1
  rw [show i - 1 + 1 = i by ring] at a
  exact ⟨a, (p3c_between true dx W i n (fun _ => by rw [ge_iff_le, one_le_div hp]; nlinarith)).2.symm⟩

/-- C36: uniform data are reproduced. -/
theorem p3c_uniform (limo3 : Bool) (dx : ℝ) (W : ℤ → Vec k ns) (il iu : ℤ) (o : Out k ns) (i : ℤ) (h1 : il ≤ i) (h2 : i ≤ iu + 1)
    (w : Vec k ns) (hW : ∀ j, i - 2 ≤ j → j ≤ i + 1 → W j = w) :
    (lrP3c limo3 dx W il iu o).Wl i = w ∧ (lrP3c limo3 dx W il iu o).Wr i = w := by
  rw [(p3c_states limo3 dx W il iu o i h1 h2).1, (p3c_states limo3 dx W il iu o i h1 h2).2]
  unfold outC
  dsimp only
  rw [hW (i - 1) (by omega) (by omega), hW i (by omega) (by omega), hW (i + 1) (by omega) (by omega), hW (i - 1 - 1) (by omega) (by omega),
    hW (i - 1 + 1) (by omega) (by omega)]
  simp

/-- C36: stencil of the compact schemes. -/
theorem p3c_stencil (limo3 : Bool) (dx : ℝ) : StencilL (k := k) (ns := ns) 2 (fun W _ il iu o => lrP3c limo3 dx W il iu o) := by
  intro W W' Bxc Bxc' il iu il' iu' o o' i t h1 h2 h3 h4 h
  dsimp only
  rw [(p3c_states limo3 dx W il iu o i h1 h2).1, (p3c_states limo3 dx W il iu o i h1 h2).2,
    (p3c_states limo3 dx W' il' iu' o' _ h3 h4).1, (p3c_states limo3 dx W' il' iu' o' _ h3 h4).2]
  have key : ∀ j, i - 1 ≤ j → j ≤ i → outC limo3 dx W j = outC limo3 dx W' (j + t) := by
    intro j h1 h2
    unfold outC
    rw [(h j (by omega) (by omega)).1, (h (j - 1) (by omega) (by omega)).1,
      (h (j + 1) (by omega) (by omega)).1, show j - 1 + t = j + t - 1 by ring, show j + 1 + t = j + t + 1 by ring]
  rw [key (i - 1) (by omega) (by omega), key i (by omega) (by omega), show i - 1 + t = i + t - 1 by ring]
  exact ⟨rfl, rfl⟩

/-! ## The integrator's assumption about the reconstruction -/

/-- The scheme given to the van Leer integrator is `Local`, as assumed there, whenever its reconstruction is one of those above. -/
theorem stencil_local {ns' : ℕ} (M : Athena.Vl3.Method ℝ (Vec k ns) ns') (r : ℤ) (hr : r ≤ 3)
    (lr : (ℤ → Vec k ns) → (ℤ → ℝ) → ℤ → ℤ → Out k ns → Out k ns) (h : StencilL r lr) (o : Out k ns)
    (hM : ∀ d w b, M.lr d w b = ((lr w b 0 0 o).Wl 0, (lr w b 0 0 o).Wr 0)) : M.Local := by
  intro d w w' b b' hw
  rw [hM, hM]
  have := h w w' b b' 0 0 0 0 o o 0 0 (by omega) (by omega) (by omega) (by omega)
    (fun m h1 h2 => by rw [add_zero]; exact hw m (by omega) (by omega))
  simp only [add_zero] at this
  rw [this.1, this.2]

end
end Athena.Recon
