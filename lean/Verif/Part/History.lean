import Verif.Base
import Mathlib.Analysis.Real.Sqrt
import Mathlib.Algebra.BigOperators.Group.List.Basic
import Mathlib.Tactic.Linarith
import Mathlib.Tactic.NormNum
import Mathlib.Tactic.Ring
import Mathlib.Tactic.FieldSimp
import Mathlib.Tactic.FinCases
import Mathlib.Tactic.IntervalCases
import Mathlib.Tactic.Tauto

/-!
# src/particles/dump_particle_history.c: the history file of the particles

Numbers are exact; `MPI_Reduce` and `MPI_Allreduce` are sums and maxima over the processes.  `expr_dpar` of the active zones, and the arrays
`FBstiff` and `Eloss` of `pG->Coup`, are given as lists.  The text of the file (formats, column headers) is not modelled, only its numbers.
-/

namespace Athena.PartHist

/-- `GrainS`, the members used here: src/athena.h (`property`, `pos`, `x1`…`v3`). -/
structure Gr where
  property : ℕ
  pos : ℕ
  x : Fin 3 → ℝ
  v : Fin 3 → ℝ

/-- One process: the particles of its Grid and the values of its active zones. -/
structure Proc where
  gr : List Gr
  dpar : List ℝ
  stiff : List ℝ
  loss : List ℝ

/-- `FEEDBACK`, `grproperty[].m`, `npartypes`, `pD->Nx[]` and the functions enrolled by the user, dump_particle_history.c:69-79. -/
structure Cfg where
  fb : Bool
  m : ℕ → ℝ
  T : ℕ
  nx : Fin 3 → ℤ
  usrS : List (Gr → ℝ)
  usrA : List (Gr → ℝ)

/-! ## The code -/

/-- `dump_parhistory_enroll`, :424-462, for one of the two lists. -/
def enroll (l : List (Gr → ℝ)) (f : Gr → ℝ) : Res (List (Gr → ℝ)) := if 10 ≤ l.length then .fatal else .ok (l ++ [f])

/-- One variable more: `mhst++; scal[mhst] += …`, :155-173. -/
noncomputable def bump (st : ℕ × (ℕ → ℝ)) (a : ℝ) : ℕ × (ℕ → ℝ) := (st.1 + 1, Function.update st.2 (st.1 + 1) (st.2 (st.1 + 1) + a))

variable (c : Cfg)

/-- `rho`, :147-151. -/
noncomputable def rho (g : Gr) : ℝ := if c.fb then c.m g.property else 1

/-- The variables that a particle contributes to, in the order of :154-173. -/
noncomputable def adds (g : Gr) : List ℝ :=
  [rho c g, rho c g * g.v 0, rho c g * g.v 1, rho c g * g.v 2, 0.5 * rho c g * g.v 0 ^ 2, 0.5 * rho c g * g.v 1 ^ 2, 0.5 * rho c g * g.v 2 ^ 2] ++
    c.usrS.map (· g)

/-- The body of the loop over the particles, :142-175 (`mhst` starts at 4 and is increased before the next variable). -/
noncomputable def addP (s : ℕ → ℝ) (g : Gr) : ℕ → ℝ := if g.pos = 1 then ((adds c g).foldl bump (3, s)).2 else s

/-- The loop over the zones, :129-139. -/
noncomputable def zones (p : Proc) (s : ℕ → ℝ) : ℕ → ℝ :=
  let s := Function.update s 1 (p.dpar.foldl max (s 1))
  if c.fb then
    let s := Function.update s 2 (p.stiff.foldl max (s 2))
    Function.update s 3 (p.loss.foldl (· + ·) (s 3))
  else s

/-- `scal[1…]` of one process, :113-116 and :129-175. -/
noncomputable def scal (p : Proc) : ℕ → ℝ := p.gr.foldl (addP c) (zones c p fun _ => 0)

/-- `vol_rat`, :189, a product of three `int`: undefined if it does not fit into 32 bits. -/
def volRat : Res ℤ :=
  if c.nx 0 * c.nx 1 < 2147483648 ∧ c.nx 0 * c.nx 1 * c.nx 2 < 2147483648 then .ok (c.nx 0 * c.nx 1 * c.nx 2) else .ub

/-- `scal[1…]` of the parent after the reduction, :177-200. -/
noncomputable def scalars (ps : List Proc) : Res (ℕ → ℝ) :=
  (volRat c).bind fun V => .ok fun n =>
    if n = 1 ∨ n = 2 then (ps.map fun p => scal c p n).foldl max (match ps with | [] => 0 | p :: _ => scal c p n)
    else if n < 11 + c.usrS.length then (ps.map fun p => scal c p n).sum * (1 / V) else 0

/-- The body of the loop over the particles that counts them and adds positions and velocities, :216-230. -/
noncomputable def addM (s : (ℕ → ℤ) × (ℕ → ℕ → ℝ)) (g : Gr) : (ℕ → ℤ) × (ℕ → ℕ → ℝ) :=
  if g.pos = 1 then
    (Function.update s.1 g.property (s.1 g.property + 1),
      fun j t => if t = g.property then
        (match j with
        | 0 => s.2 0 t + g.x 0 | 1 => s.2 1 t + g.x 1 | 2 => s.2 2 t + g.x 2 | 3 => s.2 3 t + g.v 0 | 4 => s.2 4 t + g.v 1 | 5 => s.2 5 t + g.v 2
        | j + 6 => s.2 (j + 6) t) else s.2 j t)
  else s

/-- The message: rows `lo ≤ j < hi` of `array` one after another, :237-242, 297-302. -/
def pack (T lo hi : ℕ) (A : ℕ → ℕ → ℝ) : ℕ → ℝ := fun n => if n < (hi - lo) * T then A (lo + n / T) (n % T) else 0

/-- `array[j][i] = recvbuf[n+i]`, :249-254, 309-314. -/
def unpack (T lo hi : ℕ) (buf : ℕ → ℝ) (A : ℕ → ℕ → ℝ) : ℕ → ℕ → ℝ := fun j t => if lo ≤ j ∧ j < hi ∧ t < T then buf ((j - lo) * T + t) else A j t

/-- Counts and means of all processes, :204-260. -/
noncomputable def means (ps : List Proc) (p : Proc) : (ℕ → ℤ) × (ℕ → ℕ → ℝ) :=
  let loc := fun p : Proc => p.gr.foldl addM (fun _ => 0, fun _ _ => 0)
  let np := fun t => (ps.map fun p => (loc p).1 t).sum
  let buf := fun n => (ps.map fun p => pack c.T 0 6 (loc p).2 n).sum
  let A := unpack c.T 0 6 buf (loc p).2
  (np, fun j t => if j < 6 then A j t / ((max 1 (np t) : ℤ) : ℝ) else A j t)

/-- The second loop over the particles, :263-282. -/
noncomputable def addV (A : ℕ → ℕ → ℝ) (g : Gr) : ℕ → ℕ → ℝ :=
  if g.pos = 1 then
    fun j t => if t = g.property then
      (match j with
      | 6 => A 6 t + (g.x 0 - A 0 t) ^ 2 | 7 => A 7 t + (g.x 1 - A 1 t) ^ 2 | 8 => A 8 t + (g.x 2 - A 2 t) ^ 2
      | 9 => A 9 t + (g.v 0 - A 3 t) ^ 2 | 10 => A 10 t + (g.v 1 - A 4 t) ^ 2 | 11 => A 11 t + (g.v 2 - A 5 t) ^ 2
      | j => if h : 12 ≤ j ∧ j - 12 < c.usrA.length then A j t + c.usrA[j - 12] g else A j t) else A j t
  else A

/-- `array` of the parent `p0` at the end, :284-326. -/
noncomputable def arrays (ps : List Proc) (p0 : Proc) : ℕ → ℕ → ℝ :=
  let loc := fun p : Proc => p.gr.foldl (addV c) (means c ps p).2
  let buf := fun n => (ps.map fun p => pack c.T 6 (12 + c.usrA.length) (loc p) n).sum
  let A := unpack c.T 6 (12 + c.usrA.length) buf (loc p0)
  let np := (means c ps p0).1
  fun j t => if j < 6 then A j t else if j < 12 then Real.sqrt (A j t / ((max 1 (np t - 1) : ℤ) : ℝ)) else A j t / ((max 1 (np t) : ℤ) : ℝ)

/-- The numbers of one call, :378-391: a line of scalars, then a line for every type. -/
noncomputable def phst (ps : List Proc) (p0 : Proc) (time : ℝ) : Res (List (List ℝ)) :=
  (scalars c ps).bind fun s => .ok
    ((time :: (List.range (10 + c.usrS.length)).map fun n => s (n + 1)) ::
      (List.range c.T).map fun t => (List.range (12 + c.usrA.length)).map fun j => arrays c ps p0 j t)

/-! ## Specification -/

/-- All particles of all processes that are inside the Grid. -/
def all (ps : List Proc) : List Gr := (ps.flatMap Proc.gr).filter fun g => g.pos = 1

/-- Those of one type. -/
def kind (ps : List Proc) (t : ℕ) : List Gr := (all ps).filter fun g => g.property = t

/-- The sum of a quantity. -/
noncomputable def tot (l : List Gr) (q : Gr → ℝ) : ℝ := (l.map q).sum

/-- The mean of a quantity, zero if there is no particle. -/
noncomputable def mean (l : List Gr) (q : Gr → ℝ) : ℝ := tot l q / (max 1 l.length : ℕ)

/-- The standard deviation of a sample, zero if there are fewer than two particles. -/
noncomputable def disp (l : List Gr) (q : Gr → ℝ) : ℝ := Real.sqrt (tot l (fun g => (q g - mean l q) ^ 2) / (max 1 (l.length - 1) : ℕ))

/-! ## Loops -/

theorem bump_list (L : List ℝ) (m : ℕ) (s : ℕ → ℝ) (n : ℕ) :
    (L.foldl bump (m, s)).2 n = s n + if h : m < n ∧ n - (m + 1) < L.length then L[n - (m + 1)]'h.2 else 0 := by
  induction L generalizing m s with
  | nil => simp
  | cons a L ih =>
    rw [List.foldl_cons]
    show (L.foldl bump (m + 1, Function.update s (m + 1) (s (m + 1) + a))).2 n = _
    rw [ih]
    by_cases e : n = m + 1
    · subst e
      rw [Function.update_self, dif_neg (by omega), dif_pos ⟨by omega, by simp⟩]
      simp
    · rw [Function.update_of_ne e]
      congr 1
      by_cases h : m + 1 < n ∧ n - (m + 1 + 1) < L.length
      · rw [dif_pos h, dif_pos ⟨by omega, by simp only [List.length_cons]; omega⟩]
        have : n - (m + 1) = (n - (m + 1 + 1)) + 1 := by omega
        simp only [this, List.getElem_cons_succ]
      · rw [dif_neg h, dif_neg (by simp only [List.length_cons]; omega)]

/-- What a particle adds to a variable. -/
noncomputable def term (n : ℕ) (g : Gr) : ℝ := if h : 3 < n ∧ n - 4 < (adds c g).length then (adds c g)[n - 4]'h.2 else 0

theorem addP_val (s : ℕ → ℝ) (g : Gr) (n : ℕ) : addP c s g n = s n + if g.pos = 1 then term c n g else 0 := by
  unfold addP
  split_ifs
  · rw [bump_list]; rfl
  · rw [add_zero]

theorem scal_loop (l : List Gr) (s : ℕ → ℝ) (n : ℕ) : l.foldl (addP c) s n = s n + tot (l.filter fun g => g.pos = 1) (term c n) := by
  induction l generalizing s with
  | nil => simp [tot]
  | cons g l ih =>
    rw [List.foldl_cons, ih, addP_val, List.filter_cons]
    by_cases h : g.pos = 1
    · simp only [h, decide_true, if_true, tot, List.map_cons, List.sum_cons]; ring
    · simp only [h, decide_false, if_false, add_zero, Bool.false_eq_true]

theorem tot_flat (ps : List Proc) (q : Gr → ℝ) : (ps.map fun p => tot (p.gr.filter fun g => g.pos = 1) q).sum = tot (all ps) q := by
  unfold all tot
  induction ps with
  | nil => simp
  | cons p ps ih => rw [List.map_cons, List.sum_cons, ih, List.flatMap_cons, List.filter_append, List.map_append, List.sum_append]

theorem max_loop (l : List ℝ) (a : ℝ) : a ≤ l.foldl max a ∧ (∀ x ∈ l, x ≤ l.foldl max a) ∧ (l.foldl max a = a ∨ l.foldl max a ∈ l) := by
  induction l generalizing a with
  | nil => simp
  | cons b l ih =>
    rw [List.foldl_cons]
    obtain ⟨h1, h2, h3⟩ := ih (max a b)
    refine ⟨(le_max_left a b).trans h1, ?_, ?_⟩
    · intro x hx
      rcases List.mem_cons.1 hx with e | e
      · rw [e]; exact (le_max_right a b).trans h1
      · exact h2 x e
    · rcases h3 with e | e
      · rw [e]
        rcases max_choice a b with c | c <;> rw [c]
        · exact Or.inl rfl
        · exact Or.inr (List.mem_cons_self ..)
      · exact Or.inr (List.mem_cons_of_mem _ e)

theorem add_loop (l : List ℝ) (a : ℝ) : l.foldl (· + ·) a = a + l.sum := by
  induction l generalizing a with
  | nil => simp
  | cons b l ih => rw [List.foldl_cons, ih, List.sum_cons]; ring

/-- A variable of one process. -/
theorem scal_val (p : Proc) (n : ℕ) : scal c p n = tot (p.gr.filter fun g => g.pos = 1) (term c n) +
    (if n = 1 then p.dpar.foldl max 0 else if n = 2 then (if c.fb then p.stiff.foldl max 0 else 0) else if n = 3 then (if c.fb then p.loss.sum else 0) else 0) := by
  unfold scal
  rw [scal_loop, add_comm]
  congr 1
  unfold zones
  by_cases h1 : n = 1
  · subst h1
    cases c.fb <;> simp
  by_cases h2 : n = 2
  · subst h2
    cases c.fb <;> simp
  by_cases h3 : n = 3
  · subst h3
    cases c.fb <;> simp [add_loop]
  cases c.fb <;> simp [h1, h2, h3]

theorem term_low {n : ℕ} (h : n ≤ 3) (l : List Gr) : tot l (term c n) = 0 := by
  unfold tot term
  have : ∀ g, ¬(3 < n ∧ n - 4 < (adds c g).length) := fun g => by omega
  simp [this]

/-- The largest of a quantity over the zones of all processes, as the program takes it: not below zero. -/
def IsTop (z : Proc → List ℝ) (ps : List Proc) (M : ℝ) : Prop := 0 ≤ M ∧ (∀ p ∈ ps, ∀ x ∈ z p, x ≤ M) ∧ (M = 0 ∨ ∃ p ∈ ps, M ∈ z p)

theorem top_of (z : Proc → List ℝ) (p : Proc) (ps : List Proc) :
    IsTop z (p :: ps) (((p :: ps).map fun p => (z p).foldl max 0).foldl max ((z p).foldl max 0)) := by
  obtain ⟨h1, h2, h3⟩ := max_loop ((p :: ps).map fun p => (z p).foldl max 0) ((z p).foldl max 0)
  refine ⟨(max_loop (z p) 0).1.trans h1, fun q hq x hx => ((max_loop (z q) 0).2.1 x hx).trans (h2 _ (List.mem_map.2 ⟨q, hq, rfl⟩)), ?_⟩
  have : ∃ q ∈ p :: ps, ((p :: ps).map fun p => (z p).foldl max 0).foldl max ((z p).foldl max 0) = (z q).foldl max 0 := by
    rcases h3 with e | e
    · exact ⟨p, List.mem_cons_self .., e⟩
    · obtain ⟨q, hq, e⟩ := List.mem_map.1 e
      exact ⟨q, hq, e.symm⟩
  obtain ⟨q, hq, e⟩ := this
  rw [e]
  rcases (max_loop (z q) 0).2.2 with a | a
  · exact Or.inl a
  · exact Or.inr ⟨q, hq, a⟩

variable {c}

theorem hist_scalars_rho {p0 : Proc} {ps : List Proc} (hV : c.nx 0 * c.nx 1 < 2147483648 ∧ c.nx 0 * c.nx 1 * c.nx 2 < 2147483648) :
    ∃ s, scalars c (p0 :: ps) = .ok s ∧ IsTop Proc.dpar (p0 :: ps) (s 1) ∧ (c.fb = true → IsTop Proc.stiff (p0 :: ps) (s 2)) ∧
      (c.fb = true → s 3 = ((p0 :: ps).flatMap Proc.loss).sum / (c.nx 0 * c.nx 1 * c.nx 2 : ℤ)) ∧
      s 4 = tot (all (p0 :: ps)) (rho c) / (c.nx 0 * c.nx 1 * c.nx 2 : ℤ) ∧
      (∀ t : Fin 3, s (5 + t) = tot (all (p0 :: ps)) (fun g => rho c g * g.v t) / (c.nx 0 * c.nx 1 * c.nx 2 : ℤ)) ∧
      (∀ t : Fin 3, s (8 + t) = tot (all (p0 :: ps)) (fun g => rho c g * g.v t ^ 2 / 2) / (c.nx 0 * c.nx 1 * c.nx 2 : ℤ)) ∧
      ∀ (n : ℕ) (h : n < c.usrS.length), s (11 + n) = tot (all (p0 :: ps)) c.usrS[n] / (c.nx 0 * c.nx 1 * c.nx 2 : ℤ) := by
  unfold scalars volRat
  rw [if_pos hV]
  refine ⟨_, rfl, ?_, ?_, ?_, ?_, ?_, ?_, ?_⟩
  · have e : (fun p => scal c p 1) = fun p : Proc => p.dpar.foldl max 0 := by
      funext p; rw [scal_val, term_low c (by norm_num)]; simp
    have e0 := congrFun e p0
    dsimp only at e0 ⊢
    rw [if_pos (Or.inl rfl), e, e0]
    exact top_of Proc.dpar p0 ps
  · intro hf
    have e : (fun p => scal c p 2) = fun p : Proc => p.stiff.foldl max 0 := by
      funext p; rw [scal_val, term_low c (by norm_num)]; simp [hf]
    have e0 := congrFun e p0
    dsimp only at e0 ⊢
    rw [if_pos (Or.inr rfl), e, e0]
    exact top_of Proc.stiff p0 ps
  · intro hf
    have e : (fun p => scal c p 3) = fun p : Proc => p.loss.sum := by
      funext p; rw [scal_val, term_low c (by norm_num)]; simp [hf]
    dsimp only
    rw [if_neg (by norm_num), if_pos (by omega), e, mul_one_div]
    congr 1
    induction (p0 :: ps) with
    | nil => simp
    | cons p l ih => rw [List.map_cons, List.sum_cons, ih, List.flatMap_cons, List.sum_append]
  all_goals
    have key : ∀ n, 3 < n → n < 11 + c.usrS.length → (if n = 1 ∨ n = 2 then ((p0 :: ps).map fun p => scal c p n).foldl max (scal c p0 n)
        else if n < 11 + c.usrS.length then ((p0 :: ps).map fun p => scal c p n).sum * (1 / ((c.nx 0 * c.nx 1 * c.nx 2 : ℤ) : ℝ)) else 0) =
        tot (all (p0 :: ps)) (term c n) / (c.nx 0 * c.nx 1 * c.nx 2 : ℤ) := by
      intro n h3 hn
      rw [if_neg (by omega), if_pos hn, mul_one_div, ← tot_flat]
      congr 2
      apply List.map_congr_left
      intro p _
      rw [scal_val, if_neg (by omega), if_neg (by omega), if_neg (by omega), add_zero]
  · dsimp only
    rw [key 4 (by norm_num) (by omega)]
    rfl
  · intro t
    dsimp only
    rw [key _ (by omega) (by omega)]
    congr 2
    funext g
    fin_cases t <;> rfl
  · intro t
    dsimp only
    rw [key _ (by omega) (by omega)]
    congr 2
    funext g
    fin_cases t <;> simp [term, adds] <;> ring
  · intro n h
    dsimp only
    rw [key _ (by omega) (by omega)]
    congr 2
    funext g
    unfold term
    rw [dif_pos ⟨by omega, by simp [adds]; omega⟩]
    have : ∀ (k : ℕ) (hk : k < (adds c g).length), k = n + 7 → (adds c g)[k] = c.usrS[n] g := by
      intro k hk e; subst e; simp [adds]
    exact this _ _ (by omega)

/-- **C133.** The line of scalars.  `V` is the number of zones of the Domain; a particle counts with its mass where there is feedback, else with 1. -/
theorem hist_scalars {p0 : Proc} {ps : List Proc} (hV : c.nx 0 * c.nx 1 < 2147483648 ∧ c.nx 0 * c.nx 1 * c.nx 2 < 2147483648) :
    ∃ s, scalars c (p0 :: ps) = .ok s ∧ IsTop Proc.dpar (p0 :: ps) (s 1) ∧ (c.fb = true → IsTop Proc.stiff (p0 :: ps) (s 2)) ∧
      (c.fb = true → s 3 = ((p0 :: ps).flatMap Proc.loss).sum / (c.nx 0 * c.nx 1 * c.nx 2 : ℤ)) ∧
      s 4 = tot (all (p0 :: ps)) (fun g => if c.fb then c.m g.property else 1) / (c.nx 0 * c.nx 1 * c.nx 2 : ℤ) ∧
      (∀ t : Fin 3, s (5 + t) = tot (all (p0 :: ps)) (fun g => (if c.fb then c.m g.property else 1) * g.v t) / (c.nx 0 * c.nx 1 * c.nx 2 : ℤ)) ∧
      (∀ t : Fin 3, s (8 + t) = tot (all (p0 :: ps)) (fun g => (if c.fb then c.m g.property else 1) * g.v t ^ 2 / 2) /
        (c.nx 0 * c.nx 1 * c.nx 2 : ℤ)) ∧
      ∀ (n : ℕ) (h : n < c.usrS.length), s (11 + n) = tot (all (p0 :: ps)) c.usrS[n] / (c.nx 0 * c.nx 1 * c.nx 2 : ℤ) :=
  hist_scalars_rho hV

/-! ## Means and deviations -/

/-- Positions (0, 1, 2) and velocities (3, 4, 5). -/
def qty (j : ℕ) (g : Gr) : ℝ := match j with | 0 => g.x 0 | 1 => g.x 1 | 2 => g.x 2 | 3 => g.v 0 | 4 => g.v 1 | _ => g.v 2

/-- The particles of a list that are of one type and inside the Grid. -/
def pick (l : List Gr) (t : ℕ) : List Gr := (l.filter fun g => g.pos = 1).filter fun g => g.property = t

theorem pick_cons (g : Gr) (l : List Gr) (t : ℕ) : pick (g :: l) t = if g.pos = 1 ∧ t = g.property then g :: pick l t else pick l t := by
  unfold pick
  by_cases h : g.pos = 1
  · by_cases e : t = g.property
    · simp [h, e]
    · simp [h, e, Ne.symm (a := t) e]
  · simp [h]

theorem addM_loop (l : List Gr) (N : ℕ → ℤ) (A : ℕ → ℕ → ℝ) : l.foldl addM (N, A) =
    (fun t => N t + (pick l t).length, fun j t => A j t + if j < 6 then tot (pick l t) (qty j) else 0) := by
  induction l generalizing N A with
  | nil => simp [pick, tot]
  | cons g l ih =>
    rw [List.foldl_cons]
    by_cases h : g.pos = 1
    · have e : addM (N, A) g = ((addM (N, A) g).1, (addM (N, A) g).2) := rfl
      rw [e, ih]
      refine Prod.ext ?_ ?_
      · funext t
        simp only [addM, h, if_true]
        rw [pick_cons]
        by_cases e : t = g.property
        · subst e; simp [h]; ring
        · simp [h, e]
      · funext j t
        simp only [addM, h, if_true]
        rw [pick_cons]
        by_cases e : t = g.property
        · subst e
          rcases lt_or_ge j 6 with a | a
          · interval_cases j <;> simp [h, tot, qty] <;> ring
          · obtain ⟨k, rfl⟩ : ∃ k, j = k + 6 := ⟨j - 6, by omega⟩
            simp
        · simp [h, e]
    · have e : addM (N, A) g = (N, A) := by simp [addM, h]
      rw [e, ih]
      simp [pick_cons, h]

theorem addV_loop (l : List Gr) (A : ℕ → ℕ → ℝ) (j t : ℕ) : l.foldl (addV c) A j t = A j t +
    if j < 6 then 0 else if j < 12 then tot (pick l t) (fun g => (qty (j - 6) g - A (j - 6) t) ^ 2)
    else if h : j - 12 < c.usrA.length then tot (pick l t) c.usrA[j - 12] else 0 := by
  induction l generalizing A with
  | nil => simp [pick, tot]
  | cons g l ih =>
    rw [List.foldl_cons, ih]
    by_cases h : g.pos = 1
    · by_cases e : t = g.property
      · have low : ∀ k, k < 6 → addV c A g k t = A k t := by
          intro k hk
          have hh : ¬(12 ≤ k ∧ k - 12 < c.usrA.length) := by omega
          simp only [addV, h, if_true, if_pos e]
          interval_cases k <;> simp
        have pk : pick (g :: l) t = g :: pick l t := by rw [pick_cons, if_pos ⟨h, e⟩]
        rw [pk]
        rcases lt_or_ge j 6 with a | a
        · simp only [if_pos a, low j a]
        · simp only [if_neg (not_lt.2 a)]
          rcases lt_or_ge j 12 with b | b
          · simp only [if_pos b, low (j - 6) (by omega)]
            have : addV c A g j t = A j t + (qty (j - 6) g - A (j - 6) t) ^ 2 := by
              simp only [addV, h, if_true, if_pos e]
              interval_cases j <;> rfl
            rw [this]
            simp only [tot, List.map_cons, List.sum_cons]; ring
          · simp only [if_neg (not_lt.2 b)]
            have : addV c A g j t = if h : 12 ≤ j ∧ j - 12 < c.usrA.length then A j t + c.usrA[j - 12] g else A j t := by
              simp only [addV, h, if_true, if_pos e]
              obtain ⟨k, rfl⟩ : ∃ k, j = k + 12 := ⟨j - 12, by omega⟩
              rfl
            rw [this]
            by_cases u : j - 12 < c.usrA.length
            · rw [dif_pos ⟨b, u⟩, dif_pos u, dif_pos u]
              simp only [tot, List.map_cons, List.sum_cons]; ring
            · rw [dif_neg (by omega), dif_neg u, dif_neg u]
      · have same : ∀ k, addV c A g k t = A k t := by intro k; simp [addV, h, e]
        have pk : pick (g :: l) t = pick l t := by rw [pick_cons, if_neg (by tauto)]
        rw [pk, same, same]
    · have same : addV c A g = A := by simp [addV, h]
      have pk : pick (g :: l) t = pick l t := by rw [pick_cons, if_neg (by tauto)]
      rw [pk, same]

theorem pick_all (ps : List Proc) (t : ℕ) : pick (ps.flatMap Proc.gr) t = kind ps t := rfl

theorem tot_pick (ps : List Proc) (t : ℕ) (q : Gr → ℝ) : (ps.map fun p => tot (pick p.gr t) q).sum = tot (kind ps t) q := by
  rw [← pick_all]
  induction ps with
  | nil => simp [pick, tot]
  | cons p ps ih =>
    rw [List.map_cons, List.sum_cons, ih, List.flatMap_cons]
    simp only [pick, tot, List.filter_append, List.map_append, List.sum_append]

theorem len_pick (ps : List Proc) (t : ℕ) : (ps.map fun p => ((pick p.gr t).length : ℤ)).sum = (kind ps t).length := by
  rw [← pick_all]
  induction ps with
  | nil => simp [pick]
  | cons p ps ih =>
    rw [List.map_cons, List.sum_cons, ih, List.flatMap_cons]
    simp only [pick, List.filter_append, List.length_append, Nat.cast_add]

/-- What is received is the sum of what was sent. -/
theorem message {T lo hi : ℕ} (ps : List Proc) (A : Proc → ℕ → ℕ → ℝ) (B : ℕ → ℕ → ℝ) {j t : ℕ} (h0 : lo ≤ j) (h1 : j < hi) (ht : t < T) :
    unpack T lo hi (fun n => (ps.map fun p => pack T lo hi (A p) n).sum) B j t = (ps.map fun p => A p j t).sum := by
  unfold unpack
  rw [if_pos ⟨h0, h1, ht⟩]
  dsimp only
  congr 1
  apply List.map_congr_left
  intro p _
  unfold pack
  have a : (j - lo) * T + t < (hi - lo) * T := by
    calc (j - lo) * T + t < (j - lo) * T + T := by omega
      _ = (j - lo + 1) * T := by ring
      _ ≤ (hi - lo) * T := Nat.mul_le_mul_right _ (by omega)
  have b : ((j - lo) * T + t) / T = j - lo := by
    rw [Nat.mul_comm, Nat.mul_add_div (by omega), Nat.div_eq_of_lt ht, add_zero]
  have d : ((j - lo) * T + t) % T = t := by
    rw [Nat.mul_comm, Nat.mul_add_mod, Nat.mod_eq_of_lt ht]
  rw [if_pos a, b, d, Nat.add_sub_cancel' h0]

theorem max_cast (n : ℕ) : (((max 1 (n : ℤ)) : ℤ) : ℝ) = ((max 1 n : ℕ) : ℝ) := by
  have : (max 1 (n : ℤ)) = ((max 1 n : ℕ) : ℤ) := by rw [Nat.cast_max]; rfl
  rw [this]; norm_cast

theorem max_pred (n : ℕ) : (((max 1 ((n : ℤ) - 1)) : ℤ) : ℝ) = ((max 1 (n - 1) : ℕ) : ℝ) := by
  have : (max 1 ((n : ℤ) - 1)) = ((max 1 (n - 1) : ℕ) : ℤ) := by omega
  rw [this]; norm_cast

theorem means_count (ps : List Proc) (p : Proc) (t : ℕ) : (means c ps p).1 t = (kind ps t).length := by
  unfold means
  dsimp only
  rw [← len_pick]
  congr 1
  apply List.map_congr_left
  intro p _
  rw [addM_loop]
  simp

theorem means_mean (ps : List Proc) (p : Proc) {j t : ℕ} (hj : j < 6) (ht : t < c.T) : (means c ps p).2 j t = mean (kind ps t) (qty j) := by
  have e := means_count (c := c) ps p t
  unfold means at e ⊢
  dsimp only at e ⊢
  rw [if_pos hj, e, message ps (fun p => (p.gr.foldl addM (fun _ => 0, fun _ _ => 0)).2) _ (Nat.zero_le _) hj ht, max_cast]
  unfold mean
  congr 1
  rw [← tot_pick]
  congr 1
  apply List.map_congr_left
  intro p _
  rw [addM_loop]
  simp [hj]

theorem means_rest (ps : List Proc) (p : Proc) {j t : ℕ} (hj : 6 ≤ j) : (means c ps p).2 j t = 0 := by
  unfold means
  dsimp only
  rw [if_neg (by omega)]
  unfold unpack
  rw [if_neg (by omega), addM_loop]
  simp [show ¬j < 6 by omega]

/-- **C133.** The lines of the types: means and standard deviations of position and velocity, and the means of the user's functions, over the particles
of the type on all processes, on whatever process they are. -/
theorem hist_types {p0 : Proc} {ps : List Proc} {t : ℕ} (ht : t < c.T) :
    (∀ j, j < 6 → arrays c ps p0 j t = mean (kind ps t) (qty j)) ∧
    (∀ j, j < 6 → arrays c ps p0 (6 + j) t = disp (kind ps t) (qty j)) ∧
    ∀ n (h : n < c.usrA.length), arrays c ps p0 (12 + n) t = mean (kind ps t) c.usrA[n] := by
  have e := fun p => means_count (c := c) ps p t
  refine ⟨?_, ?_, ?_⟩
  · intro j hj
    unfold arrays
    dsimp only
    rw [if_pos hj]
    unfold unpack
    rw [if_neg (by omega), addV_loop, if_pos hj, add_zero, means_mean ps p0 hj ht]
  · intro j hj
    unfold arrays
    dsimp only
    rw [if_neg (by omega), if_pos (by omega), e, max_pred, message ps (fun p => p.gr.foldl (addV c) (means c ps p).2) _ (by omega) (by omega) ht]
    unfold disp
    congr 2
    rw [← tot_pick]
    congr 1
    apply List.map_congr_left
    intro p _
    rw [addV_loop, if_neg (by omega), if_pos (by omega), means_rest ps p (by omega), zero_add, Nat.add_sub_cancel_left, means_mean ps p hj ht]
  · intro n h
    unfold arrays
    dsimp only
    rw [if_neg (by omega), if_neg (by omega), e, max_cast, message ps (fun p => p.gr.foldl (addV c) (means c ps p).2) _ (by omega) (by omega) ht]
    unfold mean
    congr 1
    rw [← tot_pick]
    congr 1
    apply List.map_congr_left
    intro p _
    rw [addV_loop, if_neg (by omega), if_neg (by omega), means_rest ps p (by omega), zero_add, dif_pos (by omega)]
    congr 1
    simp

/-! ## Decomposition -/

theorem tot_perm {l l' : List Gr} (h : l.Perm l') (q : Gr → ℝ) : tot l q = tot l' q := (h.map q).sum_eq

theorem mean_perm {l l' : List Gr} (h : l.Perm l') (q : Gr → ℝ) : mean l q = mean l' q := by unfold mean; rw [tot_perm h, h.length_eq]

theorem disp_perm {l l' : List Gr} (h : l.Perm l') (q : Gr → ℝ) : disp l q = disp l' q := by
  unfold disp; rw [mean_perm h, tot_perm h, h.length_eq]

theorem top_unique {z : Proc → List ℝ} {ps ps' : List Proc} (h : ∀ x, x ∈ ps.flatMap z ↔ x ∈ ps'.flatMap z) {M M' : ℝ} (a : IsTop z ps M) (b : IsTop z ps' M') :
    M = M' := by
  have le : ∀ {ps ps' : List Proc} {M M' : ℝ}, (∀ x, x ∈ ps.flatMap z → x ∈ ps'.flatMap z) → IsTop z ps M → IsTop z ps' M' → M ≤ M' := by
    intro ps ps' M M' h a b
    rcases a.2.2 with e | ⟨p, hp, e⟩
    · rw [e]; exact b.1
    · obtain ⟨q, hq, e'⟩ := List.mem_flatMap.1 (h M (List.mem_flatMap.2 ⟨p, hp, e⟩))
      exact b.2.1 q hq M e'
  exact le_antisymm (le (fun x => (h x).1) a b) (le (fun x => (h x).2) b a)

/-- **C133.** The file does not depend on which process holds which particle or zone. -/
theorem hist_decomposition {p0 p0' : Proc} {ps ps' : List Proc} (hg : (all (p0 :: ps)).Perm (all (p0' :: ps')))
    (hd : ((p0 :: ps).flatMap Proc.dpar).Perm ((p0' :: ps').flatMap Proc.dpar))
    (hs : ((p0 :: ps).flatMap Proc.stiff).Perm ((p0' :: ps').flatMap Proc.stiff))
    (hl : ((p0 :: ps).flatMap Proc.loss).Perm ((p0' :: ps').flatMap Proc.loss)) (time : ℝ) :
    phst c (p0 :: ps) p0 time = phst c (p0' :: ps') p0' time := by
  unfold phst scalars
  cases hv : volRat c with
  | fatal => rfl
  | ub => rfl
  | ok V =>
    simp only [Res.bind]
    congr 2
    · congr 1
      apply List.map_congr_left
      intro n hn
      rw [List.mem_range] at hn
      by_cases h1 : n + 1 = 1
      · simp only [h1, true_or, if_true]
        have e : (fun p => scal c p 1) = fun p : Proc => p.dpar.foldl max 0 := by
          funext p; rw [scal_val, term_low c (by norm_num)]; simp
        have e0 := congrFun e p0; have e1 := congrFun e p0'
        rw [e, e0, e1]
        exact top_unique (fun x => hd.mem_iff) (top_of Proc.dpar p0 ps) (top_of Proc.dpar p0' ps')
      by_cases h2 : n + 1 = 2
      · simp only [h2, or_true, if_true]
        have e : (fun p => scal c p 2) = fun p : Proc => (if c.fb then p.stiff else []).foldl max 0 := by
          funext p; rw [scal_val, term_low c (by norm_num)]; cases c.fb <;> simp
        have e0 := congrFun e p0; have e1 := congrFun e p0'
        rw [e, e0, e1]
        refine top_unique (fun x => ?_) (top_of (fun p => if c.fb then p.stiff else []) p0 ps) (top_of (fun p => if c.fb then p.stiff else []) p0' ps')
        cases c.fb
        · simp
        · exact hs.mem_iff
      have hnn : ¬(n + 1 = 1 ∨ n + 1 = 2) := by omega
      have hlt : n + 1 < 11 + c.usrS.length := by omega
      simp only [if_neg hnn, if_pos hlt]
      congr 1
      by_cases h3 : n + 1 = 3
      · rw [h3]
        have e : (fun p => scal c p 3) = fun p : Proc => (if c.fb then p.loss else []).sum := by
          funext p; rw [scal_val, term_low c (by norm_num)]; cases c.fb <;> simp
        have fl : ∀ l : List Proc, (l.map fun p : Proc => p.loss.sum).sum = (l.flatMap Proc.loss).sum := by
          intro l
          induction l with
          | nil => simp
          | cons p l ih => rw [List.map_cons, List.sum_cons, ih, List.flatMap_cons, List.sum_append]
        rw [e]
        cases c.fb
        · simp
        · simp only [if_true]
          rw [fl, fl]
          exact hl.sum_eq
      · have v : ∀ l : List Proc, (l.map fun p => scal c p (n + 1)).sum = tot (all l) (term c (n + 1)) := by
          intro l
          rw [← tot_flat]
          congr 1
          apply List.map_congr_left
          intro p _
          rw [scal_val, if_neg h1, if_neg h2, if_neg h3, add_zero]
        rw [v, v, tot_perm hg]
    · apply List.map_congr_left
      intro t ht
      rw [List.mem_range] at ht
      apply List.map_congr_left
      intro j hj
      rw [List.mem_range] at hj
      have hk : (kind (p0 :: ps) t).Perm (kind (p0' :: ps') t) := hg.filter _
      obtain ⟨a1, a2, a3⟩ := hist_types (c := c) (p0 := p0) (ps := p0 :: ps) ht
      obtain ⟨b1, b2, b3⟩ := hist_types (c := c) (p0 := p0') (ps := p0' :: ps') ht
      rcases lt_or_ge j 6 with h | h
      · rw [a1 j h, b1 j h, mean_perm hk]
      · rcases lt_or_ge j 12 with h' | h'
        · obtain ⟨k, rfl⟩ : ∃ k, j = 6 + k := ⟨j - 6, by omega⟩
          rw [a2 k (by omega), b2 k (by omega), disp_perm hk]
        · obtain ⟨k, rfl⟩ : ∃ k, j = 12 + k := ⟨j - 12, by omega⟩
          rw [a3 k (by omega), b3 k (by omega), mean_perm hk]

/-! ## Moving frame -/

/-- The particle seen from a frame that moves. -/
def boost (u : Fin 3 → ℝ) (g : Gr) : Gr := { g with v := fun t => g.v t + u t }

theorem mean_shift {l : List Gr} (hl : l ≠ []) (f : Gr → Gr) (q : Gr → ℝ) (a : ℝ) (h : ∀ g, q (f g) = q g + a) : mean (l.map f) q = mean l q + a := by
  have hn : 0 < l.length := List.length_pos_iff.2 hl
  have t : tot (l.map f) q = tot l q + l.length * a := by
    unfold tot
    clear hl hn
    induction l with
    | nil => simp
    | cons g l ih => simp only [List.map_cons, List.sum_cons, ih, h, List.length_cons, Nat.cast_add, Nat.cast_one]; ring
  unfold mean
  rw [t, List.length_map, max_eq_right hn]
  have : (l.length : ℝ) ≠ 0 := by positivity
  field_simp

theorem disp_shift (l : List Gr) (f : Gr → Gr) (q : Gr → ℝ) (a : ℝ) (h : ∀ g, q (f g) = q g + a) : disp (l.map f) q = disp l q := by
  by_cases hl : l = []
  · subst hl; rfl
  unfold disp
  rw [mean_shift hl f q a h, List.length_map]
  congr 2
  unfold tot
  rw [List.map_map]
  congr 1
  apply List.map_congr_left
  intro g _
  simp only [Function.comp_apply, h]
  ring

theorem kind_boost (u : Fin 3 → ℝ) (ps : List Proc) (t : ℕ) :
    kind (ps.map fun p => { p with gr := p.gr.map (boost u) }) t = (kind ps t).map (boost u) := by
  rw [← pick_all, ← pick_all, List.flatMap_map]
  induction ps with
  | nil => rfl
  | cons p ps ih =>
    have cat : ∀ a b : List Gr, pick (a ++ b) t = pick a t ++ pick b t := fun a b => by simp [pick]
    rw [List.flatMap_cons, List.flatMap_cons, cat, cat, ih, List.map_append]
    congr 1
    induction p.gr with
    | nil => rfl
    | cons g l ih' =>
      rw [List.map_cons, pick_cons, pick_cons, ih']
      have e1 : (boost u g).pos = g.pos := rfl
      have e2 : (boost u g).property = g.property := rfl
      rw [e1, e2]
      split_ifs <;> simp

/-- **C133.** In a frame that moves, the mean velocities differ by its velocity and the deviations are the same. -/
theorem hist_frame (u : Fin 3 → ℝ) {p0 : Proc} {ps : List Proc} {t : ℕ} (ht : t < c.T) (hk : kind ps t ≠ []) (b : Fin 3) :
    arrays c (ps.map fun p => { p with gr := p.gr.map (boost u) }) { p0 with gr := p0.gr.map (boost u) } (3 + b) t = arrays c ps p0 (3 + b) t + u b ∧
    arrays c (ps.map fun p => { p with gr := p.gr.map (boost u) }) { p0 with gr := p0.gr.map (boost u) } (9 + b) t = arrays c ps p0 (9 + b) t := by
  obtain ⟨a1, a2, -⟩ := hist_types (c := c) (p0 := p0) (ps := ps) ht
  obtain ⟨b1, b2, -⟩ := hist_types (c := c) (p0 := { p0 with gr := p0.gr.map (boost u) }) (ps := ps.map fun p => { p with gr := p.gr.map (boost u) }) ht
  have q : ∀ g, qty (3 + b) (boost u g) = qty (3 + b) g + u b := by intro g; fin_cases b <;> rfl
  have e : 9 + (b : ℕ) = 6 + (3 + b) := by ring
  constructor
  · rw [a1 _ (by omega), b1 _ (by omega), kind_boost, mean_shift hk _ _ _ q]
  · rw [e, a2 _ (by omega), b2 _ (by omega), kind_boost, disp_shift _ _ _ _ q]

/-! ## Enrolment -/

/-- Enrolments one after another. -/
def enrollAll : List (Gr → ℝ) → List (Gr → ℝ) → Res (List (Gr → ℝ))
  | l, [] => .ok l
  | l, f :: fs => (enroll l f).bind fun l => enrollAll l fs

/-- **C133.** Up to ten functions are kept in the order of enrolment, so that all `scal[]`, rows of `array[][]` and messages are inside their arrays
(21 numbers, 22 rows); one more ends the program. -/
theorem enroll_bound (fs : List (Gr → ℝ)) : enrollAll [] fs = if fs.length ≤ 10 then .ok fs else .fatal := by
  have key : ∀ l fs : List (Gr → ℝ), l.length ≤ 10 → enrollAll l fs = if l.length + fs.length ≤ 10 then .ok (l ++ fs) else .fatal := by
    intro l fs
    induction fs generalizing l with
    | nil => intro h; simp [enrollAll, h]
    | cons f fs ih =>
      intro h
      unfold enrollAll enroll
      by_cases h10 : 10 ≤ l.length
      · rw [if_pos h10, if_neg (by simp; omega)]; rfl
      · rw [if_neg h10]
        show enrollAll (l ++ [f]) fs = _
        rw [ih _ (by simp; omega)]
        simp only [List.length_append, List.length_cons, List.length_nil, List.append_assoc, List.singleton_append]
        congr 2
        omega
  simpa using key [] fs (by simp)

example : enrollAll [] (List.replicate 10 fun g => g.x 0) = .ok (List.replicate 10 fun g => g.x 0) := by rw [enroll_bound]; simp
example : enrollAll [] (List.replicate 11 fun g => g.x 0) = .fatal := by rw [enroll_bound]; simp

/-! ## Large Domains, and an example -/

/-- **C133** fails for large Domains: the number of zones is a product of `int`. -/
theorem hist_large_false : ¬∀ (c : Cfg) (ps : List Proc) (p0 : Proc) (time : ℝ), (∀ t, 0 < c.nx t) → ∃ r, phst c ps p0 time = .ok r := by
  intro h
  obtain ⟨r, hr⟩ := h ⟨false, fun _ => 1, 1, fun _ => 2048, [], []⟩ [] ⟨[], [], [], []⟩ 0 (fun _ => by norm_num)
  revert hr
  unfold phst scalars volRat
  rw [if_neg (by norm_num)]
  exact fun h => nomatch h

def exC : Cfg := ⟨false, fun _ => 1, 2, fun _ => 2, [], [fun g => g.x 0]⟩
def exG (t : ℕ) (x v : ℝ) : Gr := ⟨t, 1, fun _ => x, fun _ => v⟩
def exA : Proc := ⟨[exG 0 1 2, exG 1 5 5], [1, 3], [], []⟩
def exB : Proc := ⟨[exG 0 3 4, { exG 0 9 9 with pos := 0 }], [2], [], []⟩

example : ∃ s, scalars exC [exA, exB] = .ok s ∧ s 4 = 3 / 8 ∧ s 5 = 11 / 8 := by
  obtain ⟨s, e, -, -, -, h4, h5, -⟩ := hist_scalars (c := exC) (p0 := exA) (ps := [exB]) (by norm_num [exC])
  have h5' := h5 0
  refine ⟨s, e, ?_, ?_⟩
  · rw [h4]; simp [all, exA, exB, exG, tot, exC]; norm_num
  · rw [show (5 : ℕ) = 5 + ((0 : Fin 3) : ℕ) from rfl, h5']; simp [all, exA, exB, exG, tot, exC]; norm_num

example : arrays exC [exA, exB] exA 0 0 = 2 ∧ arrays exC [exA, exB] exA 6 0 = Real.sqrt 2 := by
  obtain ⟨h1, h2, -⟩ := hist_types (c := exC) (p0 := exA) (ps := [exA, exB]) (t := 0) (by norm_num [exC])
  have k : kind [exA, exB] 0 = [exG 0 1 2, exG 0 3 4] := by simp [kind, all, exA, exB, exG]
  have m : mean [exG 0 1 2, exG 0 3 4] (qty 0) = 2 := by simp [mean, tot, qty, exG]; norm_num
  refine ⟨by rw [h1 0 (by norm_num), k, m], ?_⟩
  rw [show (6 : ℕ) = 6 + 0 from rfl, h2 0 (by norm_num), k]
  unfold disp
  rw [m]
  simp [tot, qty, exG]; norm_num

example : phst exC [exA, exB] exA 1 = phst exC [exB, exA] exB 1 := by
  apply hist_decomposition
  · have : all [exA, exB] = [exG 0 1 2, exG 1 5 5] ++ [exG 0 3 4] := by simp [all, exA, exB, exG]
    have h : all [exB, exA] = [exG 0 3 4] ++ [exG 0 1 2, exG 1 5 5] := by simp [all, exA, exB, exG]
    rw [this, h]; exact List.perm_append_comm
  · simpa [exA, exB] using (List.perm_append_comm (l₁ := [(1 : ℝ), 3]) (l₂ := [2]))
  · simp [exA, exB]
  · simp [exA, exB]

example : arrays exC ([exA, exB].map fun p => { p with gr := p.gr.map (boost fun _ => 7) }) { exA with gr := exA.gr.map (boost fun _ => 7) } (9 + (0 : Fin 3)) 0 =
    arrays exC [exA, exB] exA (9 + (0 : Fin 3)) 0 :=
  (hist_frame (fun _ => 7) (by norm_num [exC]) (by simp [kind, all, exA, exB, exG]) 0).2

end Athena.PartHist
