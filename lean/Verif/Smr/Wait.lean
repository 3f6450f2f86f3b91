import Mathlib.Tactic.Linarith
import Mathlib.Data.List.Perm.Basic

/-!
# src/smr.c: matching completed receives with entries of the overlap table (C48)

`RestrictCorrect` and `Prolongate` post one receive per remote table entry with a non-zero number of
words, then accept them with `MPI_Waitany` in any order.  The request array is compacted: entries with no
words have no request.  The index returned by `MPI_Waitany` has to be turned back into a table entry and
an address in the receive buffer.
-/

namespace Athena.Smr.Wait

/-- A posted receive: index in the request array, table entry, address in the buffer, length. -/
structure Post where
  slot : Nat
  entry : Nat
  addr : Nat
  len : Nat
deriving DecidableEq, Repr

/-- The loop posting the receives, src/smr.c:121-132 and 1410-1425.  `ws` are the word counts of the
entries from `e` on; `nmy` = `NmyCGrid`/`NmyPGrid`, `z` = `nZeroRC`/`nZeroP`, `a` = `mAddress`. -/
def postLoop (nmy : Nat) : List Nat → Nat → Nat → Nat → List Post
  | [], _, _, _ => []
  | w :: ws, e, z, a =>
    if w = 0 then postLoop nmy ws (e+1) (z+1) a
    else { slot := e - nmy - z, entry := e, addr := a, len := w } :: postLoop nmy ws (e+1) z (a+w)

/-- RestrictCorrect: addresses start at 0 (src/smr.c:119). -/
def postsRC (nmy : Nat) (tab : List Nat) : List Post := postLoop nmy (tab.drop nmy) nmy 0 0

/-- Prolongate: addresses start after the data of the parent on the same processor (src/smr.c:1406-1408).
`none` if `NmyPGrid > 0` but the table is empty. -/
def postsP (nmy : Nat) (tab : List Nat) : Option (List Post) :=
  if nmy > 0 then tab.head?.map fun w0 => postLoop nmy (tab.drop nmy) nmy 0 w0
  else some (postLoop nmy (tab.drop nmy) nmy 0 0)

/-- `for(i=NmyCGrid; i<=mIndex; i++) if(CGrid[i].nWordsRC == 0) mIndex++;` (src/smr.c:180-181,
1569-1570).  The first argument is the part of the table from `i` on; reading past the end of the table
is the outcome `none`. -/
def fixLoop : List Nat → Nat → Nat → Option Nat
  | tab, i, m =>
    if i ≤ m then
      match tab with
      | [] => none
      | w :: ws => fixLoop ws (i+1) (if w = 0 then m+1 else m)
    else some m

/-- Entry found for the request index `slot` (src/smr.c:178-181, 1568-1570). -/
def entryOf (nmy : Nat) (tab : List Nat) (slot : Nat) : Option Nat :=
  fixLoop (tab.drop nmy) nmy (slot + nmy)

/-- RestrictCorrect: `for (i=NmyCGrid; i<mIndex; i++) mAddress += nWordsRC` (src/smr.c:183-184). -/
def addrRC (nmy : Nat) (tab : List Nat) (e : Nat) : Nat := ((tab.drop nmy).take (e - nmy)).sum

/-- Prolongate: `for (i=0; i<mIndex; i++) mAddress += nWordsP` (src/smr.c:1572-1573). -/
def addrP (tab : List Nat) (e : Nat) : Nat := (tab.take e).sum

/-- Number of remote entries without words: src/smr.c:148-151, 1543-1544. -/
def nZero (nmy : Nat) (tab : List Nat) : Nat := ((tab.drop nmy).filter (· = 0)).length

/-- `mCount`: src/smr.c:170, 1559. -/
def mCount (nmy : Nat) (tab : List Nat) : Nat := tab.length - nmy - nZero nmy tab

/-- The receiving loop (src/smr.c:153-187; 1546-1576) for the part done with messages: `order` is the
sequence of indices returned by `MPI_Waitany`; the result is the sequence of table entries and buffer
addresses that are unpacked, or `none` if the table is read out of range. -/
def recvLoop (nmy : Nat) (tab : List Nat) (address : Nat → Nat) : List Nat → Option (List (Nat × Nat))
  | [] => some []
  | s :: ss =>
    (entryOf nmy tab s).bind fun e => (recvLoop nmy tab address ss).map fun r => (e, address e) :: r

/-! ## Lemmas -/

theorem fixLoop_post (nmy : Nat) : ∀ (ws : List Nat) (e z a : Nat), nmy + z ≤ e →
    ∀ p ∈ postLoop nmy ws e z a, ∀ m, m = p.slot + nmy + z →
      fixLoop ws e m = some p.entry ∧ e - nmy - z ≤ p.slot ∧ e ≤ p.entry ∧
      p.addr = a + (ws.take (p.entry - e)).sum ∧ ws[p.entry - e]? = some p.len ∧ p.len ≠ 0 := by
  intro ws
  induction ws with
  | nil => intro e z a _ p hp; simp [postLoop] at hp
  | cons w ws ih =>
    intro e z a hez p hp m hm
    unfold postLoop at hp
    by_cases hw : w = 0
    · rw [if_pos hw] at hp
      obtain ⟨h1, h2, h3, h4, h5, h6⟩ := ih (e+1) (z+1) a (by omega) p hp (m+1) (by omega)
      refine ⟨?_, by omega, by omega, ?_, ?_, h6⟩
      · unfold fixLoop
        rw [if_pos (by omega)]
        simp only [if_pos hw]
        exact h1
      · rw [h4, show p.entry - e = (p.entry - (e+1)) + 1 by omega, List.take_succ_cons, List.sum_cons, hw]
        omega
      · rw [show p.entry - e = (p.entry - (e+1)) + 1 by omega, List.getElem?_cons_succ]
        exact h5
    · rw [if_neg hw] at hp
      rcases List.mem_cons.1 hp with rfl | hp
      · refine ⟨?_, le_refl _, le_refl _, by simp, by simp, hw⟩
        dsimp only at hm
        have : m = e := by omega
        subst this
        unfold fixLoop
        rw [if_pos le_rfl]
        simp only [if_neg hw]
        unfold fixLoop
        rw [if_neg (by omega)]
      · obtain ⟨h1, h2, h3, h4, h5, h6⟩ := ih (e+1) z (a+w) (by omega) p hp m hm
        refine ⟨?_, by omega, by omega, ?_, ?_, h6⟩
        · unfold fixLoop
          rw [if_pos (by omega)]
          simp only [if_neg hw]
          exact h1
        · rw [h4, show p.entry - e = (p.entry - (e+1)) + 1 by omega, List.take_succ_cons, List.sum_cons]
          omega
        · rw [show p.entry - e = (p.entry - (e+1)) + 1 by omega, List.getElem?_cons_succ]
          exact h5

theorem postLoop_slots (nmy : Nat) : ∀ (ws : List Nat) (e z a : Nat), nmy + z ≤ e →
    (postLoop nmy ws e z a).map Post.slot =
      List.range' (e - nmy - z) (ws.length - (ws.filter (· = 0)).length) := by
  intro ws
  induction ws with
  | nil => intros; simp [postLoop]
  | cons w ws ih =>
    intro e z a h
    have hl : (ws.filter (· = 0)).length ≤ ws.length := List.length_filter_le _ _
    unfold postLoop
    by_cases hw : w = 0
    · rw [if_pos hw, ih _ _ _ (by omega)]
      simp only [hw, List.filter_cons, decide_true, if_true, List.length_cons]
      congr 1 <;> omega
    · rw [if_neg hw, List.map_cons, ih _ _ _ (by omega)]
      simp only [List.filter_cons, hw, decide_false, Bool.false_eq_true, if_false, List.length_cons]
      rw [show ws.length + 1 - (List.filter (fun x => decide (x = 0)) ws).length =
        (ws.length - (List.filter (fun x => decide (x = 0)) ws).length) + 1 by omega, List.range'_succ]
      congr 2
      omega

theorem postLoop_complete (nmy : Nat) : ∀ (ws : List Nat) (e z a i w : Nat),
    ws[i]? = some w → w ≠ 0 → ∃ p ∈ postLoop nmy ws e z a, p.entry = e + i ∧ p.len = w := by
  intro ws
  induction ws with
  | nil => intro e z a i w h; simp at h
  | cons x ws ih =>
    intro e z a i w h hw
    unfold postLoop
    cases i with
    | zero =>
      simp only [List.getElem?_cons_zero, Option.some.injEq] at h
      subst h
      rw [if_neg hw]
      exact ⟨_, List.mem_cons_self, rfl, rfl⟩
    | succ i =>
      rw [List.getElem?_cons_succ] at h
      split_ifs
      · obtain ⟨p, hp, h1, h2⟩ := ih (e+1) (z+1) a i w h hw
        exact ⟨p, hp, by omega, h2⟩
      · obtain ⟨p, hp, h1, h2⟩ := ih (e+1) z (a+x) i w h hw
        exact ⟨p, List.mem_cons_of_mem _ hp, by omega, h2⟩

/-! ## Property C48 -/

/-- The table entry `e` holds `w` words. -/
def Entry (tab : List Nat) (e w : Nat) : Prop := tab[e]? = some w

/-- What the receive loop should do with the message of request `slot`. -/
structure Correct (nmy : Nat) (tab : List Nat) (address : Nat → Nat) (p : Post) : Prop where
  remote : nmy ≤ p.entry
  words : Entry tab p.entry p.len ∧ p.len ≠ 0
  entry : entryOf nmy tab p.slot = some p.entry
  addr : address p.entry = p.addr

theorem correctRC (nmy : Nat) (tab : List Nat) :
    ∀ p ∈ postsRC nmy tab, Correct nmy tab (addrRC nmy tab) p := by
  intro p hp
  obtain ⟨h1, h2, h3, h4, h5, h6⟩ := fixLoop_post nmy (tab.drop nmy) nmy 0 0 (by omega) p hp _ rfl
  refine ⟨h3, ⟨?_, h6⟩, h1, ?_⟩
  · rw [List.getElem?_drop, show nmy + (p.entry - nmy) = p.entry by omega] at h5
    exact h5
  · rw [h4, addrRC]; omega

theorem sum_take_split (tab : List Nat) (n m : Nat) :
    (tab.take n).sum + ((tab.drop n).take m).sum = (tab.take (n + m)).sum := by
  rw [List.take_add, List.sum_append]

/-- With at most one parent on the same processor. -/
theorem correctP (nmy : Nat) (hn : nmy ≤ 1) (tab : List Nat) (ps : List Post)
    (h : postsP nmy tab = some ps) : ∀ p ∈ ps, Correct nmy tab (addrP tab) p := by
  intro p hp
  obtain ⟨a, ha, hps⟩ : ∃ a, a = (tab.take nmy).sum ∧ ps = postLoop nmy (tab.drop nmy) nmy 0 a := by
    unfold postsP at h
    split_ifs at h with h0
    · have hn1 : nmy = 1 := by omega
      subst hn1
      cases tab with
      | nil => simp at h
      | cons w ws =>
        simp only [List.head?_cons, Option.map_some, Option.some.injEq] at h
        exact ⟨w, by simp, h.symm⟩
    · have hn0 : nmy = 0 := by omega
      subst hn0
      simp only [Option.some.injEq] at h
      exact ⟨0, by simp, h.symm⟩
  rw [hps] at hp
  obtain ⟨h1, h2, h3, h4, h5, h6⟩ := fixLoop_post nmy (tab.drop nmy) nmy 0 a (by omega) p hp _ rfl
  refine ⟨h3, ⟨?_, h6⟩, h1, ?_⟩
  · rw [List.getElem?_drop, show nmy + (p.entry - nmy) = p.entry by omega] at h5
    exact h5
  · rw [h4, addrP, ha, sum_take_split, show nmy + (p.entry - nmy) = p.entry by omega]

theorem recvLoop_perm (nmy : Nat) (tab : List Nat) (address : Nat → Nat) (ps : List Post)
    (hc : ∀ p ∈ ps, Correct nmy tab address p) (order : List Nat)
    (ho : order.Perm (ps.map Post.slot)) :
    ∃ r, recvLoop nmy tab address order = some r ∧ r.Perm (ps.map fun p => (p.entry, p.addr)) := by
  have key : ∀ qs : List Post, (∀ p ∈ qs, Correct nmy tab address p) →
      recvLoop nmy tab address (qs.map Post.slot) = some (qs.map fun p => (p.entry, p.addr)) := by
    intro qs
    induction qs with
    | nil => intro _; rfl
    | cons q qs ih =>
      intro hq
      have h1 := hq q List.mem_cons_self
      simp only [List.map_cons, recvLoop]
      rw [h1.entry, Option.bind_some, ih (fun p hp => hq p (List.mem_cons_of_mem _ hp)),
        Option.map_some, h1.addr]
  obtain ⟨qs, hq, rfl⟩ : ∃ qs : List Post, qs.Perm ps ∧ order = qs.map Post.slot := by
    have := List.Perm.map Post.slot (List.Perm.refl ps)
    clear key hc this
    induction ps generalizing order with
    | nil => exact ⟨[], List.Perm.refl _, by simpa using ho⟩
    | cons p ps ih =>
      simp only [List.map_cons] at ho
      have hmem : p.slot ∈ order := ho.symm.subset List.mem_cons_self
      obtain ⟨l1, l2, rfl⟩ := List.append_of_mem hmem
      have h2 : (l1 ++ l2).Perm (ps.map Post.slot) := by
        have h3 : (p.slot :: (l1 ++ l2)).Perm (p.slot :: ps.map Post.slot) :=
          List.perm_middle.symm.trans ho
        exact List.Perm.cons_inv h3
      obtain ⟨qs, h4, h5⟩ := ih _ h2
      obtain ⟨q1, q2, rfl, rfl, rfl⟩ := List.map_eq_append_iff.1 h5.symm
      exact ⟨q1 ++ p :: q2, List.perm_middle.trans (List.Perm.cons _ h4), by simp⟩
  refine ⟨_, key qs (fun p hp => hc p (hq.subset hp)), hq.map _⟩

/-- **C48 (restriction).**  `MPI_Waitany` is called once per posted receive and the indices of the posted
receives are `0 .. mCount-1`; every remote entry with a non-zero number of words has exactly one posted
receive; and in whatever order the messages complete, the entries unpacked, with their addresses in the
buffer, are exactly those of the posted receives, each once. -/
theorem waitany_restrict (nmy : Nat) (tab : List Nat) :
    let ps := postsRC nmy tab
    ps.map Post.slot = List.range (mCount nmy tab) ∧
    (∀ e w, nmy ≤ e → Entry tab e w → w ≠ 0 → ∃ p ∈ ps, p.entry = e ∧ p.len = w) ∧
    (∀ p ∈ ps, nmy ≤ p.entry ∧ Entry tab p.entry p.len ∧ p.len ≠ 0 ∧
      p.addr = ((tab.drop nmy).take (p.entry - nmy)).sum) ∧
    ∀ order : List Nat, order.Perm (List.range (mCount nmy tab)) →
      ∃ r, recvLoop nmy tab (addrRC nmy tab) order = some r ∧
        r.Perm (ps.map fun p => (p.entry, p.addr)) := by
  have hs : (postsRC nmy tab).map Post.slot = List.range (mCount nmy tab) := by
    have := postLoop_slots nmy (tab.drop nmy) nmy 0 0 (by omega)
    rw [postsRC, this, List.range_eq_range', mCount, nZero, List.length_drop]
    congr 1; omega
  refine ⟨hs, fun e w he hw h0 => ?_, fun p hp => ?_, fun order ho => ?_⟩
  · obtain ⟨p, hp, h1, h2⟩ := postLoop_complete nmy (tab.drop nmy) nmy 0 0 (e - nmy) w
      (by rw [List.getElem?_drop, show nmy + (e - nmy) = e by omega]; exact hw) h0
    exact ⟨p, hp, by omega, h2⟩
  · have := correctRC nmy tab p hp
    exact ⟨this.remote, this.words.1, this.words.2, this.addr.symm⟩
  · exact recvLoop_perm nmy tab _ _ (correctRC nmy tab) order (by rw [hs]; exact ho)

/-- **C48 (prolongation).**  The same with the addresses used by `Prolongate`, when at most one parent
Grid is on the same processor. -/
theorem waitany_prolongate (nmy : Nat) (hn : nmy ≤ 1) (tab : List Nat) (hlen : nmy ≤ tab.length) :
    ∃ ps, postsP nmy tab = some ps ∧
    ps.map Post.slot = List.range (mCount nmy tab) ∧
    (∀ e w, nmy ≤ e → Entry tab e w → w ≠ 0 → ∃ p ∈ ps, p.entry = e ∧ p.len = w) ∧
    (∀ p ∈ ps, nmy ≤ p.entry ∧ Entry tab p.entry p.len ∧ p.len ≠ 0 ∧ p.addr = (tab.take p.entry).sum) ∧
    ∀ order : List Nat, order.Perm (List.range (mCount nmy tab)) →
      ∃ r, recvLoop nmy tab (addrP tab) order = some r ∧
        r.Perm (ps.map fun p => (p.entry, p.addr)) := by
  obtain ⟨a, ps, hps, hpa⟩ : ∃ a ps, postsP nmy tab = some ps ∧
      ps = postLoop nmy (tab.drop nmy) nmy 0 a := by
    unfold postsP
    split_ifs with h0
    · cases tab with
      | nil => simp at hlen; omega
      | cons w ws => exact ⟨w, _, rfl, rfl⟩
    · exact ⟨0, _, rfl, rfl⟩
  have hs : ps.map Post.slot = List.range (mCount nmy tab) := by
    have := postLoop_slots nmy (tab.drop nmy) nmy 0 a (by omega)
    rw [hpa, this, List.range_eq_range', mCount, nZero, List.length_drop]
    congr 1; omega
  refine ⟨ps, hps, hs, fun e w he hw h0 => ?_, fun p hp => ?_, fun order ho => ?_⟩
  · obtain ⟨p, hp, h1, h2⟩ := postLoop_complete nmy (tab.drop nmy) nmy 0 a (e - nmy) w
      (by rw [List.getElem?_drop, show nmy + (e - nmy) = e by omega]; exact hw) h0
    exact ⟨p, hpa ▸ hp, by omega, h2⟩
  · have := correctP nmy hn tab ps hps p hp
    exact ⟨this.remote, this.words.1, this.words.2, this.addr.symm⟩
  · exact recvLoop_perm nmy tab _ _ (correctP nmy hn tab ps hps) order (by rw [hs]; exact ho)

/-- **C48, order independence.**  If unpacking is done by a function `unpack entry address` and the
unpackings of different posted messages commute, the final state does not depend on the order in which
the messages complete. -/
theorem order_irrelevant {S : Type*} (nmy : Nat) (tab : List Nat) (unpack : Nat → Nat → S → S)
    (hcomm : ∀ p ∈ postsRC nmy tab, ∀ q ∈ postsRC nmy tab, ∀ s,
      unpack p.entry p.addr (unpack q.entry q.addr s) = unpack q.entry q.addr (unpack p.entry p.addr s))
    (o1 o2 : List Nat) (h1 : o1.Perm (List.range (mCount nmy tab)))
    (h2 : o2.Perm (List.range (mCount nmy tab))) (s : S) :
    ∃ r1 r2, recvLoop nmy tab (addrRC nmy tab) o1 = some r1 ∧
      recvLoop nmy tab (addrRC nmy tab) o2 = some r2 ∧
      r1.foldl (fun s ea => unpack ea.1 ea.2 s) s = r2.foldl (fun s ea => unpack ea.1 ea.2 s) s := by
  obtain ⟨_, _, _, hr⟩ := waitany_restrict nmy tab
  obtain ⟨r1, e1, p1⟩ := hr o1 h1
  obtain ⟨r2, e2, p2⟩ := hr o2 h2
  refine ⟨r1, r2, e1, e2, ?_⟩
  refine (p1.trans p2.symm).foldl_eq' ?_ s
  intro x hx y hy z
  obtain ⟨p, hp, rfl⟩ := List.mem_map.1 (p1.subset hx)
  obtain ⟨q, hq, rfl⟩ := List.mem_map.1 (p1.subset hy)
  exact hcomm q hq p hp z

/-- With two parents on the same processor the address used by the reader would be wrong: the hypothesis
`nmy ≤ 1` is needed. -/
theorem waitany_prolongate_false : ∃ (tab : List Nat) (ps : List Post) (p : Post),
    postsP 2 tab = some ps ∧ p ∈ ps ∧ addrP tab p.entry ≠ p.addr := by
  refine ⟨[3, 4, 5], [⟨0, 2, 3, 5⟩], ⟨0, 2, 3, 5⟩, by decide, by simp, by decide⟩

/-- A table with own entries, empty remote entries and three messages. -/
example : postsRC 1 [7, 0, 5, 0, 0, 2, 9] = [⟨0, 2, 0, 5⟩, ⟨1, 5, 5, 2⟩, ⟨2, 6, 7, 9⟩] ∧
    mCount 1 [7, 0, 5, 0, 0, 2, 9] = 3 ∧
    recvLoop 1 [7, 0, 5, 0, 0, 2, 9] (addrRC 1 [7, 0, 5, 0, 0, 2, 9]) [2, 0, 1] =
      some [(6, 7), (2, 0), (5, 5)] := by decide

end Athena.Smr.Wait
