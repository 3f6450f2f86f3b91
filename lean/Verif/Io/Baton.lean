import Mathlib.Data.Finset.Card
import Mathlib.Data.Finset.Range
import Mathlib.Algebra.BigOperators.Group.Finset.Basic
import Mathlib.Algebra.BigOperators.Intervals
import Mathlib.Algebra.Order.BigOperators.Group.Finset
import Mathlib.Tactic.Linarith

/-!
# src/baton.c: passing the baton; C42

`n` ranks each execute `baton_start(Nb,tag); …; baton_stop(Nb,tag)` once, as in src/main.c:779-786 and
802-810 (both uses are followed by an `MPI_Allreduce`, so successive uses do not overlap).  Any
interleaving of the ranks' steps is a run.  MPI: a message from `fr_id` with this tag waits in the
receiver's mailbox until received; `MPI_Send` may return at once (buffered) or only after the message has
been received (synchronous) - both are covered by the flag `sync`.
-/

namespace Athena.Baton

/-- Where a rank is: before or inside `MPI_Recv` of `baton_start`; between `baton_start` and
`baton_stop`; in `baton_stop` before the message is handed to MPI; waiting for `MPI_Send` to
return; after `baton_stop`. -/
inductive Phase where
  | ready | inside | stopping | sending | done
  deriving DecidableEq, Repr

/-- State of all ranks and their mailboxes (message from rank `r - Nb` to rank `r`). -/
structure St where
  ph : ℕ → Phase
  mail : ℕ → Bool

/-- All ranks before `baton_start`, no messages. -/
def init : St := ⟨fun _ => .ready, fun _ => false⟩

/-- Assignment at one rank. -/
def upd {α : Type} (f : ℕ → α) (r : ℕ) (v : α) : ℕ → α := fun x => if x = r then v else f x

/-- `Nb > 0 && fr_id >= 0` with `fr_id = my_id - Nb`, src/baton.c:56-58. -/
def mustWait (nb r : ℕ) : Prop := nb > 0 ∧ r ≥ nb

/-- `Nb > 0 && to_id < nproc` with `to_id = my_id + Nb`, src/baton.c:89-91. -/
def mustSignal (n nb r : ℕ) : Prop := nb > 0 ∧ r + nb < n

instance (nb r : ℕ) : Decidable (mustWait nb r) := inferInstanceAs (Decidable (_ ∧ _))
instance (n nb r : ℕ) : Decidable (mustSignal n nb r) := inferInstanceAs (Decidable (_ ∧ _))

/-- One step of rank `r < n` of `n` ranks.  `nb` is `Nb` (0 stands for every value that is not
positive). -/
inductive Step (sync : Bool) (n nb : ℕ) : St → St → Prop where
  /-- `baton_start` returns without waiting, src/baton.c:58. -/
  | enterFree (s : St) (r : ℕ) (hr : r < n) (h : s.ph r = .ready) (hw : ¬ mustWait nb r) :
      Step sync n nb s ⟨upd s.ph r .inside, s.mail⟩
  /-- `MPI_Recv` finds the message and `baton_start` returns, src/baton.c:60. -/
  | enterRecv (s : St) (r : ℕ) (hr : r < n) (h : s.ph r = .ready) (hw : mustWait nb r)
      (hm : s.mail r = true) : Step sync n nb s ⟨upd s.ph r .inside, upd s.mail r false⟩
  /-- `baton_stop` is called. -/
  | leave (s : St) (r : ℕ) (hr : r < n) (h : s.ph r = .inside) :
      Step sync n nb s ⟨upd s.ph r .stopping, s.mail⟩
  /-- `MPI_Send` hands over the message, src/baton.c:93. -/
  | send (s : St) (r : ℕ) (hr : r < n) (h : s.ph r = .stopping) (hs : mustSignal n nb r) :
      Step sync n nb s ⟨upd s.ph r .sending, upd s.mail (r + nb) true⟩
  /-- `MPI_Send` returns. -/
  | sendDone (s : St) (r : ℕ) (hr : r < n) (h : s.ph r = .sending)
      (hm : sync = true → s.mail (r + nb) = false) : Step sync n nb s ⟨upd s.ph r .done, s.mail⟩
  /-- No one to signal, src/baton.c:91. -/
  | noSend (s : St) (r : ℕ) (hr : r < n) (h : s.ph r = .stopping) (hs : ¬ mustSignal n nb r) :
      Step sync n nb s ⟨upd s.ph r .done, s.mail⟩

/-- Runs of `k` steps from the initial state. -/
inductive Run (sync : Bool) (n nb : ℕ) : ℕ → St → Prop where
  | nil : Run sync n nb 0 init
  | snoc (k : ℕ) (s s' : St) (h : Run sync n nb k s) (h' : Step sync n nb s s') : Run sync n nb (k + 1) s'

/-! ## Invariants -/

/-- The rank has called `baton_stop`. -/
def Phase.past : Phase → Prop
  | .ready | .inside => False
  | _ => True

/-- The rank has handed over its message. -/
def Phase.sent : Phase → Prop
  | .sending | .done => True
  | _ => False

/-- What holds in every reachable state: a waiting rank that has started, or has a message, has a
predecessor that sent; and a predecessor that sent to a rank still waiting left the message. -/
structure Inv (n nb : ℕ) (s : St) : Prop where
  started : ∀ r, nb > 0 → r ≥ nb → s.ph r ≠ .ready → (s.ph (r - nb)).sent
  mailed : ∀ r, s.mail r = true → nb > 0 ∧ r ≥ nb ∧ r < n ∧ s.ph r = .ready ∧ (s.ph (r - nb)).sent
  pending : ∀ r, nb > 0 → r ≥ nb → r < n → (s.ph (r - nb)).sent → s.ph r = .ready → s.mail r = true
  outside : ∀ r, r ≥ n → s.ph r = .ready

theorem upd_same {α : Type} (f : ℕ → α) (r : ℕ) (v : α) : upd f r v r = v := if_pos rfl
theorem upd_ne {α : Type} (f : ℕ → α) {r x : ℕ} (v : α) (h : x ≠ r) : upd f r v x = f x := if_neg h

theorem inv_init (n nb : ℕ) : Inv n nb init :=
  ⟨fun _ _ _ h => absurd rfl h, fun _ h => absurd h (by simp [init]),
   fun _ _ _ _ h _ => absurd h (by simp [init, Phase.sent]), fun _ _ => rfl⟩

theorem inv_step {sync : Bool} {n nb : ℕ} {s s' : St} (hi : Inv n nb s) (h : Step sync n nb s s') :
    Inv n nb s' := by
  obtain ⟨h1, h2, h3, h4⟩ := hi
  cases h with
  | enterFree r hr h hw =>
    refine ⟨?_, ?_, ?_, ?_⟩ <;> dsimp only
    · intro q hb hq hn
      have hqr : q ≠ r := by rintro rfl; exact hw ⟨hb, hq⟩
      rw [upd_ne _ _ hqr] at hn
      have := h1 q hb hq hn
      by_cases e : q - nb = r
      · rw [e, h] at this; exact absurd this (by simp [Phase.sent])
      · rwa [upd_ne _ _ e]
    · intro q hq
      obtain ⟨a, b, c, d, e⟩ := h2 q hq
      have hqr : q ≠ r := by rintro rfl; exact hw ⟨a, b⟩
      refine ⟨a, b, c, by rwa [upd_ne _ _ hqr], ?_⟩
      by_cases e' : q - nb = r
      · rw [e', h] at e; exact absurd e (by simp [Phase.sent])
      · rwa [upd_ne _ _ e']
    · intro q hb hq hn hs hp
      have hqr : q ≠ r := by rintro rfl; exact hw ⟨hb, hq⟩
      rw [upd_ne _ _ hqr] at hp
      by_cases e' : q - nb = r
      · rw [e', upd_same] at hs; exact absurd hs (by simp [Phase.sent])
      · rw [upd_ne _ _ e'] at hs; exact h3 q hb hq hn hs hp
    · intro q hq; rw [upd_ne _ _ (by omega)]; exact h4 q hq
  | enterRecv r hr h hw hm =>
    obtain ⟨-, -, -, -, hsent⟩ := h2 r hm
    refine ⟨?_, ?_, ?_, ?_⟩ <;> dsimp only
    · intro q hb hq hn
      by_cases hqr : q = r
      · subst hqr
        rw [upd_ne _ _ (by omega)]; exact hsent
      · rw [upd_ne _ _ hqr] at hn
        have := h1 q hb hq hn
        by_cases e : q - nb = r
        · rw [e, h] at this; exact absurd this (by simp [Phase.sent])
        · rwa [upd_ne _ _ e]
    · intro q hq
      by_cases hqr : q = r
      · subst hqr; rw [upd_same] at hq; exact absurd hq (by simp)
      · rw [upd_ne _ _ hqr] at hq
        obtain ⟨a, b, c, d, e⟩ := h2 q hq
        refine ⟨a, b, c, by rwa [upd_ne _ _ hqr], ?_⟩
        by_cases e' : q - nb = r
        · rw [e', h] at e; exact absurd e (by simp [Phase.sent])
        · rwa [upd_ne _ _ e']
    · intro q hb hq hn hs hp
      by_cases hqr : q = r
      · subst hqr; rw [upd_same] at hp; exact absurd hp (by simp)
      · rw [upd_ne _ _ hqr] at hp ⊢
        by_cases e' : q - nb = r
        · rw [e', upd_same] at hs; exact absurd hs (by simp [Phase.sent])
        · rw [upd_ne _ _ e'] at hs; exact h3 q hb hq hn hs hp
    · intro q hq; rw [upd_ne _ _ (by omega)]; exact h4 q hq
  | leave r hr h =>
    refine ⟨?_, ?_, ?_, ?_⟩ <;> dsimp only
    · intro q hb hq hn
      have hn' : s.ph q ≠ .ready := by
        by_cases e : q = r
        · rw [e, h]; simp
        · rwa [upd_ne _ _ e] at hn
      have := h1 q hb hq hn'
      by_cases e : q - nb = r
      · rw [e, h] at this; exact absurd this (by simp [Phase.sent])
      · rwa [upd_ne _ _ e]
    · intro q hq
      obtain ⟨a, b, c, d, e⟩ := h2 q hq
      have hqr : q ≠ r := by rintro rfl; rw [h] at d; exact absurd d (by simp)
      refine ⟨a, b, c, by rwa [upd_ne _ _ hqr], ?_⟩
      by_cases e' : q - nb = r
      · rw [e', h] at e; exact absurd e (by simp [Phase.sent])
      · rwa [upd_ne _ _ e']
    · intro q hb hq hn hs hp
      have hqr : q ≠ r := by rintro rfl; rw [upd_same] at hp; exact absurd hp (by simp)
      rw [upd_ne _ _ hqr] at hp
      by_cases e' : q - nb = r
      · rw [e', upd_same] at hs; exact absurd hs (by simp [Phase.sent])
      · rw [upd_ne _ _ e'] at hs; exact h3 q hb hq hn hs hp
    · intro q hq; rw [upd_ne _ _ (by omega)]; exact h4 q hq
  | send r hr h hs =>
    obtain ⟨hb0, hrn⟩ := hs
    have hnr : s.ph (r + nb) = .ready := by
      by_contra hc
      have := h1 (r + nb) hb0 (by omega) hc
      rw [Nat.add_sub_cancel, h] at this; exact absurd this (by simp [Phase.sent])
    refine ⟨?_, ?_, ?_, ?_⟩ <;> dsimp only
    · intro q hb hq hn
      have hn' : s.ph q ≠ .ready := by
        by_cases e : q = r
        · rw [e, h]; simp
        · rwa [upd_ne _ _ e] at hn
      have := h1 q hb hq hn'
      by_cases e : q - nb = r
      · rw [e, upd_same]; trivial
      · rwa [upd_ne _ _ e]
    · intro q hq
      by_cases hqr : q = r + nb
      · subst hqr
        refine ⟨hb0, by omega, hrn, by rw [upd_ne _ _ (by omega)]; exact hnr, ?_⟩
        rw [Nat.add_sub_cancel, upd_same]; trivial
      · rw [upd_ne _ _ hqr] at hq
        obtain ⟨a, b, c, d, e⟩ := h2 q hq
        have hq' : q ≠ r := by rintro rfl; rw [h] at d; exact absurd d (by simp)
        refine ⟨a, b, c, by rwa [upd_ne _ _ hq'], ?_⟩
        by_cases e' : q - nb = r
        · rw [e', upd_same]; trivial
        · rwa [upd_ne _ _ e']
    · intro q hb hq hn hs hp
      by_cases hqr : q = r + nb
      · subst hqr; exact upd_same _ _ _
      · rw [upd_ne _ _ hqr]
        have hq' : q ≠ r := by rintro rfl; rw [upd_same] at hp; exact absurd hp (by simp)
        rw [upd_ne _ _ hq'] at hp
        have e' : q - nb ≠ r := by omega
        rw [upd_ne _ _ e'] at hs; exact h3 q hb hq hn hs hp
    · intro q hq; rw [upd_ne _ _ (by omega)]; exact h4 q hq
  | sendDone r hr h hm =>
    refine ⟨?_, ?_, ?_, ?_⟩ <;> dsimp only
    · intro q hb hq hn
      have hn' : s.ph q ≠ .ready := by
        by_cases e : q = r
        · rw [e, h]; simp
        · rwa [upd_ne _ _ e] at hn
      have := h1 q hb hq hn'
      by_cases e : q - nb = r
      · rw [e, upd_same]; trivial
      · rwa [upd_ne _ _ e]
    · intro q hq
      obtain ⟨a, b, c, d, e⟩ := h2 q hq
      have hq' : q ≠ r := by rintro rfl; rw [h] at d; exact absurd d (by simp)
      refine ⟨a, b, c, by rwa [upd_ne _ _ hq'], ?_⟩
      by_cases e' : q - nb = r
      · rw [e', upd_same]; trivial
      · rwa [upd_ne _ _ e']
    · intro q hb hq hn hs hp
      have hq' : q ≠ r := by rintro rfl; rw [upd_same] at hp; exact absurd hp (by simp)
      rw [upd_ne _ _ hq'] at hp
      by_cases e' : q - nb = r
      · exact h3 q hb hq hn (by rw [e', h]; trivial) hp
      · rw [upd_ne _ _ e'] at hs; exact h3 q hb hq hn hs hp
    · intro q hq; rw [upd_ne _ _ (by omega)]; exact h4 q hq
  | noSend r hr h hs =>
    refine ⟨?_, ?_, ?_, ?_⟩ <;> dsimp only
    · intro q hb hq hn
      have hn' : s.ph q ≠ .ready := by
        by_cases e : q = r
        · rw [e, h]; simp
        · rwa [upd_ne _ _ e] at hn
      have := h1 q hb hq hn'
      by_cases e : q - nb = r
      · rw [e, upd_same]; trivial
      · rwa [upd_ne _ _ e]
    · intro q hq
      obtain ⟨a, b, c, d, e⟩ := h2 q hq
      have hq' : q ≠ r := by rintro rfl; rw [h] at d; exact absurd d (by simp)
      refine ⟨a, b, c, by rwa [upd_ne _ _ hq'], ?_⟩
      by_cases e' : q - nb = r
      · rw [e', upd_same]; trivial
      · rwa [upd_ne _ _ e']
    · intro q hb hq hn hs' hp
      have hq' : q ≠ r := by rintro rfl; rw [upd_same] at hp; exact absurd hp (by simp)
      rw [upd_ne _ _ hq'] at hp
      by_cases e' : q - nb = r
      · exact absurd ⟨hb, by omega⟩ hs
      · rw [upd_ne _ _ e'] at hs'; exact h3 q hb hq hn hs' hp
    · intro q hq; rw [upd_ne _ _ (by omega)]; exact h4 q hq

theorem inv_run {sync : Bool} {n nb k : ℕ} {s : St} (h : Run sync n nb k s) : Inv n nb s := by
  induction h with
  | nil => exact inv_init n nb
  | snoc k s s' _ h' ih => exact inv_step ih h'

/-- Ranks further down a started rank's chain have sent. -/
theorem chain_sent {n nb : ℕ} {s : St} (hi : Inv n nb s) (hb : nb > 0) (r : ℕ) (hr : s.ph r ≠ .ready) :
    ∀ m, m > 0 → m * nb ≤ r → (s.ph (r - m * nb)).sent := by
  intro m
  induction m with
  | zero => intro h; omega
  | succ m ih =>
    intro _ hm
    by_cases h0 : m = 0
    · subst h0; simpa using hi.started r hb (by simpa using hm) hr
    · have hm' : m * nb ≤ r := by rw [Nat.succ_mul] at hm; omega
      have := ih (by omega) hm'
      have h2 := hi.started (r - m * nb) hb (by rw [Nat.succ_mul] at hm; omega)
        (by intro hc; rw [hc] at this; exact this)
      rwa [Nat.sub_sub, ← Nat.succ_mul] at h2

/-- Steps a rank has still to do. -/
def todo (n nb r : ℕ) : Phase → ℕ
  | .ready => if mustSignal n nb r then 4 else 3
  | .inside => if mustSignal n nb r then 3 else 2
  | .stopping => if mustSignal n nb r then 2 else 1
  | .sending => 1
  | .done => 0

/-- Steps all ranks have still to do. -/
def todoAll (n nb : ℕ) (s : St) : ℕ := ∑ r ∈ Finset.range n, todo n nb r (s.ph r)

theorem todoAll_upd (n nb : ℕ) (s : St) (m : ℕ → Bool) (r : ℕ) (p : Phase) (hr : r < n)
    (h : todo n nb r (s.ph r) = todo n nb r p + 1) :
    todoAll n nb s = todoAll n nb ⟨upd s.ph r p, m⟩ + 1 := by
  unfold todoAll
  rw [← Finset.add_sum_erase _ _ (Finset.mem_range.mpr hr),
    ← Finset.add_sum_erase (a := r) _ (fun r' => todo n nb r' (upd s.ph r p r')) (Finset.mem_range.mpr hr)]
  have : ∑ x ∈ (Finset.range n).erase r, todo n nb x (s.ph x)
      = ∑ x ∈ (Finset.range n).erase r, todo n nb x (upd s.ph r p x) := by
    apply Finset.sum_congr rfl
    intro x hx
    rw [upd_ne _ _ (Finset.ne_of_mem_erase hx)]
  rw [this, h, upd_same]
  omega

theorem todo_step {sync : Bool} {n nb : ℕ} {s s' : St} (hi : Inv n nb s) (h : Step sync n nb s s') :
    todoAll n nb s = todoAll n nb s' + 1 := by
  cases h with
  | enterFree r hr h hw =>
    apply todoAll_upd _ _ _ _ _ _ hr; rw [h]; unfold todo; dsimp only; split_ifs <;> rfl
  | enterRecv r hr h hw hm =>
    apply todoAll_upd _ _ _ _ _ _ hr; rw [h]; unfold todo; dsimp only; split_ifs <;> rfl
  | leave r hr h =>
    apply todoAll_upd _ _ _ _ _ _ hr; rw [h]; unfold todo; dsimp only; split_ifs <;> rfl
  | send r hr h hs =>
    apply todoAll_upd _ _ _ _ _ _ hr; rw [h]; unfold todo; dsimp only; rw [if_pos hs]
  | sendDone r hr h hm =>
    apply todoAll_upd _ _ _ _ _ _ hr; rw [h]; rfl
  | noSend r hr h hs =>
    apply todoAll_upd _ _ _ _ _ _ hr; rw [h]; unfold todo; dsimp only; rw [if_neg hs]

theorem todo_run {sync : Bool} {n nb k : ℕ} {s : St} (h : Run sync n nb k s) :
    todoAll n nb init = todoAll n nb s + k := by
  induction h with
  | nil => rfl
  | snoc k s s' h h' ih => rw [ih, todo_step (inv_run h) h']; omega

/-! ## C42 -/

/-- The ranks between `baton_start` and `baton_stop`. -/
def active (n : ℕ) (s : St) : Finset ℕ := (Finset.range n).filter fun r => s.ph r = .inside

/-- C42: in every reachable state of every interleaving, with buffered or synchronous sends, at most `Nb`
ranks are between `baton_start` and `baton_stop`. -/
theorem at_most_Nb (sync : Bool) (n nb k : ℕ) (hb : nb > 0) (s : St) (h : Run sync n nb k s) :
    (active n s).card ≤ nb := by
  have hi := inv_run h
  have hm : ∀ r ∈ active n s, r % nb ∈ Finset.range nb :=
    fun r _ => Finset.mem_range.mpr (Nat.mod_lt _ hb)
  have hinj : Set.InjOn (fun r => r % nb) (active n s) := by
    have key : ∀ a b, a ∈ active n s → b ∈ active n s → a % nb = b % nb → a ≤ b → a = b := by
      intro a b ha hb' e hab
      by_contra hne
      have ha' : s.ph a = .inside := (Finset.mem_filter.mp ha).2
      have hb'' : s.ph b = .inside := (Finset.mem_filter.mp hb').2
      obtain ⟨m, hm⟩ : ∃ m, b = a + m * nb := by
        have h1 := Nat.div_add_mod a nb
        have h2 := Nat.div_add_mod b nb
        refine ⟨b / nb - a / nb, ?_⟩
        have hle : a / nb ≤ b / nb := Nat.div_le_div_right hab
        rw [Nat.sub_mul, Nat.mul_comm (b / nb), Nat.mul_comm (a / nb)]
        have : nb * (a / nb) ≤ nb * (b / nb) := Nat.mul_le_mul_left _ hle
        omega
      have hm0 : m > 0 := by
        rcases Nat.eq_zero_or_pos m with h0 | h0
        · subst h0; simp at hm; omega
        · exact h0
      have := chain_sent hi hb b (by rw [hb'']; simp) m hm0 (by omega)
      rw [hm, Nat.add_sub_cancel, ha'] at this
      exact this
    intro a ha b hb' e
    rcases Nat.le_total a b with hab | hab
    · exact key a b ha hb' e hab
    · exact (key b a hb' ha e.symm hab).symm
  simpa using Finset.card_le_card_of_injOn (fun r => r % nb) hm hinj

/-- C42: no deadlock: in every reachable state in which some rank has not finished, some rank can take a
step. -/
theorem no_deadlock (sync : Bool) (n nb k : ℕ) (s : St) (h : Run sync n nb k s)
    (hnd : ∃ r, r < n ∧ s.ph r ≠ .done) : ∃ s', Step sync n nb s s' := by
  have hi := inv_run h
  by_contra hstuck
  push Not at hstuck
  -- every rank is either finished or waiting for its predecessor, or sending to a waiting successor
  have key : ∀ r, r < n → s.ph r = .done ∨ s.ph r = .sending := by
    intro r
    induction r using Nat.strong_induction_on with
    | _ r ih =>
      intro hr
      cases hp : s.ph r with
      | ready =>
        exfalso
        by_cases hw : mustWait nb r
        · have hpred := ih (r - nb) (by unfold mustWait at hw; omega) (by omega)
          have hsent : (s.ph (r - nb)).sent := by
            rcases hpred with e | e <;> rw [e] <;> trivial
          exact hstuck _ (Step.enterRecv s r hr hp hw (hi.pending r hw.1 hw.2 hr hsent hp))
        · exact hstuck _ (Step.enterFree s r hr hp hw)
      | inside => exact absurd (Step.leave s r hr hp) (hstuck _)
      | stopping =>
        exfalso
        by_cases hs : mustSignal n nb r
        · exact hstuck _ (Step.send s r hr hp hs)
        · exact hstuck _ (Step.noSend s r hr hp hs)
      | sending => exact Or.inr rfl
      | done => exact Or.inl rfl
  obtain ⟨r, hr, hne⟩ := hnd
  have hsend := (key r hr).resolve_left hne
  cases hm : s.mail (r + nb)
  · exact hstuck _ (Step.sendDone s r hr hsend (fun _ => hm))
  · obtain ⟨_, _, hlt, hready, _⟩ := hi.mailed _ hm
    rcases key _ hlt with e | e <;> rw [e] at hready <;> exact absurd hready (by simp)

/-- C42: every run is finite: it has at most `4 n` steps; and a run that cannot be continued has every
rank past `baton_stop`.  So in every schedule every rank gets the baton. -/
theorem terminates (sync : Bool) (n nb k : ℕ) (s : St) (h : Run sync n nb k s) :
    k ≤ 4 * n ∧ ((¬ ∃ s', Step sync n nb s s') → ∀ r, r < n → s.ph r = .done) := by
  constructor
  · have h1 := todo_run h
    have : todoAll n nb init ≤ n * 4 := by
      unfold todoAll
      calc ∑ r ∈ Finset.range n, todo n nb r (init.ph r) ≤ ∑ _r ∈ Finset.range n, 4 := by
            apply Finset.sum_le_sum; intro r _
            show todo n nb r .ready ≤ 4
            unfold todo; dsimp only; split_ifs <;> omega
        _ = n * 4 := by simp
    omega
  · intro hs r hr
    by_contra hne
    exact hs (no_deadlock sync n nb k s h ⟨r, hr, hne⟩)

/-- A rank past `baton_stop` has been inside: `inside` is the only way out of `ready`. -/
theorem inside_before_done {sync : Bool} {n nb : ℕ} {s s' : St} (h : Step sync n nb s s') (r : ℕ)
    (h0 : s.ph r = .ready) (h1 : s'.ph r ≠ .ready) : s'.ph r = .inside := by
  cases h with
  | enterFree q hr h hw =>
    by_cases e : r = q
    · subst e; exact upd_same _ _ _
    · exact absurd (by dsimp only; rw [upd_ne _ _ e]; exact h0) h1
  | enterRecv q hr h hw hm =>
    by_cases e : r = q
    · subst e; exact upd_same _ _ _
    · exact absurd (by dsimp only; rw [upd_ne _ _ e]; exact h0) h1
  | leave q hr h =>
    by_cases e : r = q
    · subst e; rw [h] at h0; exact absurd h0 (by simp)
    · exact absurd (by dsimp only; rw [upd_ne _ _ e]; exact h0) h1
  | send q hr h hs =>
    by_cases e : r = q
    · subst e; rw [h] at h0; exact absurd h0 (by simp)
    · exact absurd (by dsimp only; rw [upd_ne _ _ e]; exact h0) h1
  | sendDone q hr h hm =>
    by_cases e : r = q
    · subst e; rw [h] at h0; exact absurd h0 (by simp)
    · exact absurd (by dsimp only; rw [upd_ne _ _ e]; exact h0) h1
  | noSend q hr h hs =>
    by_cases e : r = q
    · subst e; rw [h] at h0; exact absurd h0 (by simp)
    · exact absurd (by dsimp only; rw [upd_ne _ _ e]; exact h0) h1

/-- The limit is attained, and is not when `Nb` is not positive: then nothing holds ranks back (here two
ranks are inside at once). -/
theorem unregulated : ∃ k s, Run false 2 0 k s ∧ (active 2 s).card = 2 := by
  refine ⟨2, _, .snoc _ _ _ (.snoc _ _ _ .nil (.enterFree _ 0 (by omega) rfl (by simp [mustWait])))
    (.enterFree _ 1 (by omega) rfl (by simp [mustWait])), ?_⟩
  decide

/-! Three ranks, two batons: rank 2 enters after rank 0 has stopped, while rank 1 is inside. -/
example : ∃ k s, Run true 3 2 k s ∧ active 3 s = {1, 2} := by
  refine ⟨5, _, .snoc _ _ _ (.snoc _ _ _ (.snoc _ _ _ (.snoc _ _ _ (.snoc _ _ _ .nil
    (.enterFree _ 0 (by omega) rfl (by simp [mustWait])))
    (.enterFree _ 1 (by omega) rfl (by simp [mustWait])))
    (.leave _ 0 (by omega) rfl))
    (.send _ 0 (by omega) rfl (by simp [mustSignal])))
    (.enterRecv _ 2 (by omega) rfl (by simp [mustWait]) rfl), ?_⟩
  decide

end Athena.Baton
