import Verif.OsmFile.Child
import Mathlib.Tactic.ByContra

/-
C103: the programs that compress, decompress and fetch files have the right standard streams, and closing a file ends them.
-/
namespace Osmium

namespace Spec

/-- The program has standard input, output and error. -/
def HasStd (t : FdTab) : Prop := ∀ i < 3, (fdAt t i).isSome

/-- Before every operation the program has at most 30 descriptors. -/
def FewFiles (w : PipeWorld) (_ : PipeOp) : Prop := w.tab.countP (·.isSome) ≤ 30

/-- The standard streams of a process. -/
def Streams (t : FdTab) (stdin stdout stderr : ChildFd) : Prop :=
  fdAt t 0 = some stdin ∧ fdAt t 1 = some stdout ∧ fdAt t 2 = some stderr

end Spec

open Spec

/-! ### Tables -/

theorem fdAt_put (t : FdTab) (i : Nat) (d : Option ChildFd) (j : Nat) :
    fdAt (fdPut t i d) j = if j = i then d else fdAt t j := by
  unfold fdAt fdPut
  split
  · rename_i h
    rw [List.getElem?_set]
    split
    · rename_i e; subst e; simp
    · rename_i e; rw [if_neg (fun h => e h.symm)]
  · rename_i h
    rcases Nat.lt_trichotomy j i with hj | hj | hj
    · rw [if_neg (by omega)]
      rw [List.getElem?_append_left (by simp; omega)]
      by_cases h2 : j < t.length
      · rw [List.getElem?_append_left h2]
      · rw [List.getElem?_append_right (by omega), List.getElem?_replicate, if_pos (by omega),
          List.getElem?_eq_none (by omega)]
        rfl
    · subst hj
      rw [if_pos rfl, List.getElem?_append_right (by simp; omega)]
      simp [show j - (t.length + (j - t.length)) = 0 by omega]
    · rw [if_neg (by omega), List.getElem?_eq_none (by simp; omega), List.getElem?_eq_none (by omega)]

theorem fdAt_closeLow (t : FdTab) (keep i : Nat) :
    fdAt (closeLow t keep) i = if i < 32 ∧ i ≠ keep then none else fdAt t i := by
  unfold fdAt closeLow
  rw [List.getElem?_mapIdx]
  cases t[i]? with
  | none => simp
  | some d => simp

theorem closeLow_keep (t : FdTab) (keep : Nat) : fdAt (closeLow t keep) keep = fdAt t keep := by
  rw [fdAt_closeLow]; exact if_neg (by simp)

theorem fdFree_none (t : FdTab) : fdAt t (fdFree t) = none := by
  unfold fdAt fdFree
  by_cases h : t.findIdx (·.isNone) < t.length
  · rw [List.getElem?_eq_getElem h]
    have := List.findIdx_getElem (w := h)
    simpa using this
  · rw [List.getElem?_eq_none (by omega)]; rfl

theorem fdFree_below (t : FdTab) (j : Nat) (h : j < fdFree t) : (fdAt t j).isSome := by
  unfold fdFree at h
  have hl : j < t.length := Nat.lt_of_lt_of_le h (List.findIdx_le_length)
  have := List.not_of_lt_findIdx h
  unfold fdAt
  rw [List.getElem?_eq_getElem hl]
  simp only [Option.isNone_iff_eq_none, Option.join_some] at this ⊢
  simpa [Option.isSome_iff_ne_none] using this

theorem fdFree_eq (t : FdTab) (n : Nat) (h : fdAt t n = none) (hb : ∀ j < n, (fdAt t j).isSome) : fdFree t = n := by
  rcases Nat.lt_trichotomy (fdFree t) n with h1 | h1 | h1
  · have := hb _ h1
    rw [fdFree_none] at this; cases this
  · exact h1
  · have := fdFree_below t n h1
    rw [h] at this; cases this

theorem fdFree_ge (t : FdTab) (n : Nat) (hb : ∀ j < n, (fdAt t j).isSome) : n ≤ fdFree t := by
  by_contra h
  have := hb (fdFree t) (by omega)
  rw [fdFree_none] at this; cases this

theorem fdFree_le_count (t : FdTab) : fdFree t ≤ t.countP (·.isSome) := by
  have h1 : fdFree t ≤ t.length := List.findIdx_le_length
  have h2 : ∀ x ∈ t.take (fdFree t), x.isSome = true := by
    intro x hx
    obtain ⟨i, hi, rfl⟩ := List.mem_iff_getElem.1 hx
    have hi' : i < fdFree t := by simp at hi; omega
    have := fdFree_below t i hi'
    unfold fdAt at this
    rw [List.getElem?_eq_getElem (by omega)] at this
    simpa using this
  have h3 : (t.take (fdFree t)).countP (·.isSome) = fdFree t := by
    rw [List.countP_eq_length.2 h2]; simp; omega
  have h4 : (t.take (fdFree t)).countP (·.isSome) ≤ t.countP (·.isSome) :=
    (List.take_sublist _ _).countP_le
  omega

theorem count_put (t : FdTab) (i : Nat) (d : Option ChildFd) :
    (fdPut t i d).countP (·.isSome) ≤ t.countP (·.isSome) + 1 := by
  unfold fdPut
  split
  · rename_i h
    rw [List.countP_set (h := h)]
    split <;> split <;> omega
  · rw [List.countP_append, List.countP_append]
    have : (List.replicate (i - t.length) (none : Option ChildFd)).countP (·.isSome) = 0 := by
      rw [List.countP_replicate]; simp
    rw [this]
    have : [d].countP (·.isSome) ≤ 1 := List.countP_le_length
    omega

theorem contains_iff (t : FdTab) (d : ChildFd) : t.contains (some d) = true ↔ ∃ i, fdAt t i = some d := by
  rw [List.contains_iff_mem, List.mem_iff_getElem?]
  unfold fdAt
  constructor
  · rintro ⟨i, h⟩; exact ⟨i, by rw [h]; rfl⟩
  · rintro ⟨i, h⟩; exact ⟨i, Option.join_eq_some_iff.1 h⟩

/-- The pipe. -/
theorem fdPipe_spec (t : FdTab) (k : Nat) :
    ∃ r w t', fdPipe t k = (r, w, t') ∧ r = fdFree t ∧ r < w ∧ fdAt t r = none ∧ fdAt t w = none ∧
      (∀ j, j < w → j ≠ r → (fdAt t j).isSome) ∧
      (∀ j, fdAt t' j = if j = w then some (.pipeW k) else if j = r then some (.pipeR k) else fdAt t j) := by
  refine ⟨_, _, _, rfl, rfl, ?_, fdFree_none t, ?_, ?_, ?_⟩
  · apply fdFree_ge
    intro j hj
    rw [fdAt_put]
    split
    · rfl
    · exact fdFree_below t j (by omega)
  · have h := fdFree_none (fdPut t (fdFree t) (some (.pipeR k)))
    rw [fdAt_put] at h
    split at h
    · cases h
    · exact h
  · intro j hj hr
    have h := fdFree_below (fdPut t (fdFree t) (some (.pipeR k))) j hj
    rw [fdAt_put, if_neg hr] at h
    exact h
  · intro j
    exact (fdAt_put _ _ _ j).trans (by rw [fdAt_put])

theorem hasStd_pipe {t : FdTab} (h : HasStd t) {r : Nat} (hr : fdAt t r = none) : 3 ≤ r := by
  by_contra hc
  have := h r (by omega)
  rw [hr] at this; cases this

/-- The descriptors of a child that decompresses, if the others are closed. -/
theorem childRead_tab (t : FdTab) (w : Nat) (exec : Bool) :
    ∃ tab, childRead t w exec = (if exec then .runs tab else .exits tab) ∧
      ∀ i d, fdAt tab i = some d → d = .null ∨ some d = fdAt t w ∨ (32 ≤ i ∧ some d = fdAt t i) := by
  refine ⟨_, rfl, ?_⟩
  intro i d h
  simp only [fdOpen] at h
  rw [fdAt_put] at h
  split at h
  · exact .inl (Option.some.inj h).symm
  · rw [fdAt_put] at h
    split at h
    · exact .inl (Option.some.inj h).symm
    · rw [fdAt_put] at h
      split at h
      · rw [closeLow_keep] at h
        exact .inr (.inl h.symm)
      · rw [fdAt_closeLow] at h
        split at h
        · cases h
        · rename_i hc
          by_cases hi : i < 32
          · have : i = w := by by_contra hne; exact hc ⟨hi, hne⟩
            subst this
            exact .inr (.inl h.symm)
          · exact .inr (.inr ⟨by omega, h.symm⟩)

/-- The descriptors of a child that compresses. -/
theorem childWrite_tab (t : FdTab) (r : Nat) (exec creates : Bool) (tab : FdTab)
    (hrun : childWrite t r exec creates = .runs tab) :
      ∀ i d, fdAt tab i = some d → d = .null ∨ d = .file ∨ some d = fdAt t r ∨ (32 ≤ i ∧ some d = fdAt t i) := by
  unfold childWrite at hrun
  simp only [fdOpen] at hrun
  generalize ht2 : fdPut (closeLow t r) 0 (fdAt (closeLow t r) r) = t2 at hrun
  split at hrun
  · by_cases hfd : fdFree t2 = 1
    case neg => rw [if_neg hfd] at hrun; cases hrun
    case pos =>
      rw [if_pos hfd] at hrun
      split at hrun
      · injection hrun with hrun
        subst hrun
        intro i d h
        rw [fdAt_put] at h
        split at h
        · exact .inl (Option.some.inj h).symm
        · rw [fdAt_put] at h
          split at h
          · exact .inr (.inl (Option.some.inj h).symm)
          · rw [← ht2, fdAt_put] at h
            split at h
            · rw [closeLow_keep] at h
              exact .inr (.inr (.inl h.symm))
            · rw [fdAt_closeLow] at h
              split at h
              · cases h
              · rename_i hc
                by_cases hi : i < 32
                · have : i = r := by by_contra hne; exact hc ⟨hi, hne⟩
                  subst this
                  exact .inr (.inr (.inl h.symm))
                · exact .inr (.inr (.inr ⟨by omega, h.symm⟩))
      · cases hrun
  · cases hrun

/-! ### Standard streams -/

/-- C103 (partial: the program has standard input, output and error): a program that decompresses or fetches a file reads
nothing, writes into the pipe, and its error messages are dropped. -/
theorem child_reads_partial (t : FdTab) (k : Nat) (h : HasStd t) :
    ∃ tab, childRead (fdPipe t k).2.2 (fdPipe t k).2.1 true = .runs tab ∧ Streams tab .null (.pipeW k) .null := by
  obtain ⟨r, w, t', e, -, hrw, hr, hw, -, ht⟩ := fdPipe_spec t k
  rw [e]
  have hr3 := hasStd_pipe h hr
  simp only [childRead, if_true, fdOpen]
  refine ⟨_, rfl, ?_⟩
  generalize ht2 : fdPut (closeLow t' w) 1 (fdAt (closeLow t' w) w) = t2
  have a2 : ∀ j, fdAt t2 j = if j = 1 then some (.pipeW k) else if j < 32 ∧ j ≠ w then none else fdAt t' j := by
    intro j
    rw [← ht2, fdAt_put, closeLow_keep, ht, if_pos rfl, fdAt_closeLow]
  have f2 : fdFree t2 = 0 := fdFree_eq _ _ (by rw [a2, if_neg (by omega), if_pos (by omega)]) (by omega)
  rw [f2]
  have f3 : fdFree (fdPut t2 0 (some .null)) = 2 := by
    apply fdFree_eq
    · rw [fdAt_put, if_neg (by omega), a2, if_neg (by omega), if_pos (by omega)]
    · intro j hj
      rw [fdAt_put, a2]
      rcases (by omega : j = 0 ∨ j = 1) with rfl | rfl <;> simp
  rw [f3]
  refine ⟨?_, ?_, ?_⟩ <;> simp [fdAt_put, a2]

/-- C103 (partial: the program has standard input, output and error): a program that compresses reads from the pipe, writes
into the file, and its error messages are dropped. -/
theorem child_writes_partial (t : FdTab) (k : Nat) (h : HasStd t) :
    ∃ tab, childWrite (fdPipe t k).2.2 (fdPipe t k).1 true true = .runs tab ∧ Streams tab (.pipeR k) .file .null := by
  obtain ⟨r, w, t', e, -, hrw, hr, hw, -, ht⟩ := fdPipe_spec t k
  rw [e]
  have hr3 := hasStd_pipe h hr
  simp only [childWrite, if_true, fdOpen]
  have hkr : fdAt t' r = some (.pipeR k) := by rw [ht, if_neg (by omega), if_pos rfl]
  generalize ht2 : fdPut (closeLow t' r) 0 (fdAt (closeLow t' r) r) = t2
  have a2 : ∀ j, fdAt t2 j = if j = 0 then some (.pipeR k) else if j < 32 ∧ j ≠ r then none else fdAt t' j := by
    intro j
    rw [← ht2, fdAt_put, closeLow_keep, hkr, fdAt_closeLow]
  have f2 : fdFree t2 = 1 := by
    apply fdFree_eq
    · rw [a2, if_neg (by omega), if_pos (by omega)]
    · intro j hj
      rw [a2, if_pos (by omega)]; rfl
  rw [f2]
  have f3 : fdFree (fdPut t2 1 (some .file)) = 2 := by
    apply fdFree_eq
    · rw [fdAt_put, if_neg (by omega), a2, if_neg (by omega), if_pos (by omega)]
    · intro j hj
      rw [fdAt_put, a2]
      rcases (by omega : j = 0 ∨ j = 1) with rfl | rfl <;> simp
  rw [f3]
  refine ⟨_, rfl, ?_⟩
  refine ⟨?_, ?_, ?_⟩ <;> simp [fdAt_put, a2]

/-- C103 fails if standard output is closed: nothing can be compressed, although the output file is emptied. -/
theorem child_closed_stdout (t : FdTab) (k : Nat) (h0 : (fdAt t 0).isSome) (h1 : fdAt t 1 = none) :
    ∃ tab i, childWrite (fdPipe t k).2.2 (fdPipe t k).1 true true = .exits tab ∧ fdAt tab i = some .file := by
  obtain ⟨r, w, t', e, er, hrw, hr, hw, hb, ht⟩ := fdPipe_spec t k
  rw [e]
  have hr1 : r = 1 := by
    rw [er]
    apply fdFree_eq _ _ h1
    intro j hj
    have : j = 0 := by omega
    subst this; exact h0
  subst hr1
  simp only [childWrite, if_true, fdOpen]
  have hkr : fdAt t' 1 = some (.pipeR k) := by rw [ht, if_neg (by omega), if_pos rfl]
  generalize ht2 : fdPut (closeLow t' 1) 0 (fdAt (closeLow t' 1) 1) = t2
  have a2 : ∀ j, fdAt t2 j = if j = 0 then some (.pipeR k) else if j < 32 ∧ j ≠ 1 then none else fdAt t' j := by
    intro j
    rw [← ht2, fdAt_put, closeLow_keep, hkr, fdAt_closeLow]
  have f2 : fdFree t2 ≠ 1 := by
    intro h
    have := fdFree_none t2
    rw [h, a2, if_neg (by omega), if_neg (by omega), ht, if_neg (by omega), if_pos rfl] at this
    cases this
  refine ⟨_, fdFree t2, if_neg f2, ?_⟩
  rw [fdAt_put, if_pos rfl]

/-- C103 fails if standard output and error are closed: what `zcat` or `curl` have to complain about becomes part of the
data. -/
theorem child_errors_in_data (t : FdTab) (k : Nat) (h0 : (fdAt t 0).isSome) (h1 : fdAt t 1 = none)
    (h2 : fdAt t 2 = none) :
    ∃ tab, childRead (fdPipe t k).2.2 (fdPipe t k).2.1 true = .runs tab ∧ Streams tab .null (.pipeW k) (.pipeW k) := by
  obtain ⟨r, w, t', e, er, hrw, hr, hw, hb, ht⟩ := fdPipe_spec t k
  rw [e]
  have hr1 : r = 1 := by
    rw [er]
    apply fdFree_eq _ _ h1
    intro j hj
    have : j = 0 := by omega
    subst this; exact h0
  subst hr1
  have hw2 : w = 2 := by
    by_contra hne
    have := hb 2 (by omega) (by omega)
    rw [h2] at this; cases this
  subst hw2
  simp only [childRead, if_true, fdOpen]
  refine ⟨_, rfl, ?_⟩
  generalize ht2 : fdPut (closeLow t' 2) 1 (fdAt (closeLow t' 2) 2) = t2
  have a2 : ∀ j, fdAt t2 j = if j = 1 then some (.pipeW k) else if j < 32 ∧ j ≠ 2 then none else fdAt t' j := by
    intro j
    rw [← ht2, fdAt_put, closeLow_keep, ht, if_pos rfl, fdAt_closeLow]
  have f2 : fdFree t2 = 0 := fdFree_eq _ _ (by rw [a2, if_neg (by omega), if_pos (by omega)]) (by omega)
  rw [f2]
  have f3 : 3 ≤ fdFree (fdPut t2 0 (some .null)) := by
    apply fdFree_ge
    intro j hj
    rw [fdAt_put, a2]
    rcases (by omega : j = 0 ∨ j = 1 ∨ j = 2) with rfl | rfl | rfl <;> simp [ht]
  refine ⟨?_, ?_, ?_⟩
  · rw [fdAt_put, if_neg (by omega)]; simp [fdAt_put]
  · rw [fdAt_put, if_neg (by omega)]; simp [fdAt_put, a2]
  · rw [fdAt_put, if_neg (by omega)]; simp [fdAt_put, a2, ht]

/-- C103 fails if the program to decompress or fetch a file is not installed: text the program has printed, but that has
not been sent yet, is written into the pipe, and so is read as the contents of the file. -/
theorem child_missing_program (t : FdTab) (k : Nat) (h : HasStd t) (pending : List UInt8) (hp : pending ≠ []) :
    ∃ tab, childRead (fdPipe t k).2.2 (fdPipe t k).2.1 false = .exits tab ∧
      exitWrites pending tab = some (.pipeW k, pending) := by
  obtain ⟨tab, h1, h2⟩ := child_reads_partial t k h
  refine ⟨tab, ?_, ?_⟩
  · simp only [childRead, if_true, if_false, Bool.false_eq_true, ChildRun.runs.injEq] at h1 ⊢
    rw [h1]
  · simp [exitWrites, hp, h2.2.1]

/-! ### Closing -/

/-- The invariant. -/
structure PipeInv (w : PipeWorld) : Prop where
  low : ∀ i, 32 ≤ i → fdAt w.tab i = none
  tab : ∀ i k, fdAt w.tab i = some (.pipeR k) ∨ fdAt w.tab i = some (.pipeW k) → (k, i) ∈ w.files
  files : ∀ k i j, (k, i) ∈ w.files → (k, j) ∈ w.files → i = j
  old : ∀ p ∈ w.files, p.1 < w.next
  kid : ∀ c ∈ w.kids, c.pipe < w.next ∧ ∀ i d, fdAt c.tab i = some d →
    d = .null ∨ d = .file ∨ d = (if c.compresses then .pipeR c.pipe else .pipeW c.pipe)
  kids : ∀ c ∈ w.kids, ∀ c' ∈ w.kids, c.pipe = c'.pipe → c = c'

theorem PipeInv.init (own : List (Option Nat)) (h : own.length ≤ 32) : PipeInv (PipeWorld.init own) := by
  refine ⟨?_, ?_, by simp [PipeWorld.init], by simp [PipeWorld.init], by simp [PipeWorld.init],
    by simp [PipeWorld.init]⟩
  · intro i hi
    unfold fdAt PipeWorld.init
    rw [List.getElem?_eq_none (by simp; omega)]; rfl
  · intro i k hk
    exfalso
    simp only [fdAt, PipeWorld.init, List.getElem?_map] at hk
    generalize own[i]? = o at hk
    rcases o with _ | _ | o <;> simp at hk

/-- A new file with a child. -/
theorem PipeInv.new {w : PipeWorld} (h : PipeInv w) (hf : w.tab.countP (·.isSome) ≤ 30) (comp : Bool)
    (r wr : Nat) (t : FdTab) (e : fdPipe w.tab w.next = (r, wr, t)) (o : Option FdTab)
    (ho : ∀ tab, o = some tab → ∀ i d, fdAt tab i = some d → d = .null ∨ d = .file ∨
      some d = fdAt t (if comp then r else wr) ∨ (32 ≤ i ∧ some d = fdAt t i)) :
    PipeInv { tab := fdPut t (if comp then r else wr) none, next := w.next + 1,
              kids := (match o with | some tab => w.kids ++ [⟨w.next, comp, tab⟩] | none => w.kids),
              files := w.files ++ [(w.next, if comp then wr else r)] } := by
  obtain ⟨r', wr', t', e', er, hrw, hr, hw, hb, ht⟩ := fdPipe_spec w.tab w.next
  rw [e] at e'
  obtain ⟨rfl, rfl, rfl⟩ : r = r' ∧ wr = wr' ∧ t = t' := by simpa using e'
  have hr30 : r ≤ 30 := by rw [er]; exact Nat.le_trans (fdFree_le_count _) hf
  have hw31 : wr ≤ 31 := by
    have : wr = fdFree (fdPut w.tab (fdFree w.tab) (some (.pipeR w.next))) := by
      have := congrArg (·.2.1) e
      exact this.symm
    rw [this]
    exact Nat.le_trans (fdFree_le_count _) (Nat.le_trans (count_put _ _ _) (by omega))
  have hlow : ∀ i, 32 ≤ i → fdAt t i = none := by
    intro i hi
    rw [ht, if_neg (by omega), if_neg (by omega)]
    exact h.low i hi
  refine ⟨?_, ?_, ?_, ?_, ?_, ?_⟩
  · intro i hi
    show fdAt (fdPut _ _ _) _ = _
    rw [fdAt_put, hlow i hi, ite_self]
  · intro i k hk
    simp only [fdAt_put, ht] at hk
    simp only [List.mem_append, List.mem_singleton, Prod.mk.injEq]
    cases comp <;> simp only [if_true, if_false, Bool.false_eq_true] at hk ⊢
    · split at hk
      · simp at hk
      · split at hk
        · rename_i e; simp only [Option.some.injEq, ChildFd.pipeR.injEq, reduceCtorEq, or_false] at hk
          exact .inr ⟨hk.symm, e⟩
        · exact .inl (h.tab i k hk)
    · split at hk
      · simp at hk
      · split at hk
        · rename_i e; simp only [Option.some.injEq, ChildFd.pipeW.injEq, reduceCtorEq, false_or] at hk
          exact .inr ⟨hk.symm, e⟩
        · exact .inl (h.tab i k hk)
  · intro k i j hi hj
    simp only [List.mem_append, List.mem_singleton, Prod.mk.injEq] at hi hj
    rcases hi with hi | ⟨rfl, rfl⟩ <;> rcases hj with hj | ⟨hj, rfl⟩
    · exact h.files k i j hi hj
    · subst hj; exact absurd (h.old _ hi) (Nat.lt_irrefl _)
    · exact absurd (h.old _ hj) (Nat.lt_irrefl _)
    · rfl
  · intro p hp
    simp only [List.mem_append, List.mem_singleton] at hp
    rcases hp with hp | rfl
    · exact Nat.lt_succ_of_lt (h.old p hp)
    · exact Nat.lt_succ_self _
  · intro c hc
    cases o with
    | none =>
      obtain ⟨h1, h2⟩ := h.kid c hc
      exact ⟨Nat.lt_succ_of_lt h1, h2⟩
    | some tab =>
      simp only [List.mem_append, List.mem_singleton] at hc
      rcases hc with hc | rfl
      · obtain ⟨h1, h2⟩ := h.kid c hc
        exact ⟨Nat.lt_succ_of_lt h1, h2⟩
      · refine ⟨Nat.lt_succ_self _, ?_⟩
        intro i d hd
        rcases ho tab rfl i d hd with h1 | h1 | h1 | ⟨h1, h2⟩
        · exact .inl h1
        · exact .inr (.inl h1)
        · right; right
          cases comp <;> simp only [if_true, if_false, Bool.false_eq_true, ht] at h1 ⊢
          · exact Option.some.inj h1
          · rw [if_neg (by omega)] at h1; exact Option.some.inj h1
        · rw [hlow i h1] at h2; cases h2
  · intro c hc c' hc' hp
    cases o with
    | none => exact h.kids c hc c' hc' hp
    | some tab =>
      simp only [List.mem_append, List.mem_singleton] at hc hc'
      rcases hc with hc | rfl <;> rcases hc' with hc' | rfl
      · exact h.kids c hc c' hc' hp
      · exact absurd (hp ▸ (h.kid c hc).1) (Nat.lt_irrefl _)
      · exact absurd (hp ▸ (h.kid c' hc').1) (Nat.lt_irrefl _)
      · rfl

/-- Dropping children. -/
theorem PipeInv.drop {w : PipeWorld} (h : PipeInv w) (p : PipeKid → Bool) : PipeInv { w with kids := w.kids.filter p } :=
  ⟨h.low, h.tab, h.files, h.old, fun c hc => h.kid c (List.mem_filter.1 hc).1,
    fun c hc c' hc' => h.kids c (List.mem_filter.1 hc).1 c' (List.mem_filter.1 hc').1⟩

/-- Closing `m_fd`. -/
theorem PipeInv.closed {w : PipeWorld} (h : PipeInv w) {k fd : Nat} (hk : (k, fd) ∈ w.files) :
    PipeInv { w with tab := fdPut w.tab fd none, files := w.files.filter (·.1 != k) } ∧
      ∀ i, fdAt (fdPut w.tab fd none) i ≠ some (.pipeR k) ∧ fdAt (fdPut w.tab fd none) i ≠ some (.pipeW k) := by
  have hno : ∀ i, fdAt (fdPut w.tab fd none) i ≠ some (.pipeR k) ∧ fdAt (fdPut w.tab fd none) i ≠ some (.pipeW k) := by
    intro i
    rw [fdAt_put]
    split
    · simp
    · rename_i hne
      exact ⟨fun he => hne (h.files k i fd (h.tab i k (.inl he)) hk),
        fun he => hne (h.files k i fd (h.tab i k (.inr he)) hk)⟩
  refine ⟨⟨?_, ?_, ?_, ?_, h.kid, h.kids⟩, hno⟩
  · intro i hi
    show fdAt (fdPut _ _ _) _ = _
    rw [fdAt_put]
    split
    · rfl
    · exact h.low i hi
  · intro i k' hk'
    have hne : k' ≠ k := by
      rintro rfl
      rcases hk' with hk' | hk'
      · exact (hno i).1 hk'
      · exact (hno i).2 hk'
    simp only [fdAt_put] at hk'
    split at hk'
    · simp at hk'
    · exact List.mem_filter.2 ⟨h.tab i k' hk', by simpa using hne⟩
  · intro k i j hi hj
    exact h.files k i j (List.mem_filter.1 hi).1 (List.mem_filter.1 hj).1
  · intro p hp
    exact h.old p (List.mem_filter.1 hp).1

/-- The child of a file that has been closed ends. -/
theorem PipeInv.ends {w : PipeWorld} (h : PipeInv w) {k : Nat}
    (hno : ∀ i, fdAt w.tab i ≠ some (.pipeR k) ∧ fdAt w.tab i ≠ some (.pipeW k)) {c : PipeKid} (hc : c ∈ w.kids)
    (hk : c.pipe = k) (finished : Bool) : w.ends c finished = true := by
  have hheld : ∀ d, (d = .pipeR k ∨ d = .pipeW k) → d ≠ (if c.compresses then .pipeR k else .pipeW k) →
      w.held d = false := by
    intro d hd hne
    rw [← Bool.not_eq_true]
    intro hh
    unfold PipeWorld.held at hh
    rw [Bool.or_eq_true, contains_iff, List.any_eq_true] at hh
    rcases hh with ⟨i, hi⟩ | ⟨c', hc', hh⟩
    · rcases hd with rfl | rfl
      · exact (hno i).1 hi
      · exact (hno i).2 hi
    · rw [contains_iff] at hh
      obtain ⟨i, hi⟩ := hh
      rcases (h.kid c' hc').2 i d hi with h1 | h1 | h1
      · subst h1; simp at hd
      · subst h1; simp at hd
      · have hp : c'.pipe = k := by
          rcases hd with rfl | rfl <;> split at h1 <;> simp at h1 <;> exact h1.symm
        have := h.kids c hc c' hc' (hk.trans hp.symm)
        subst this
        rw [hk] at h1
        exact hne h1
  unfold PipeWorld.ends
  cases hcc : c.compresses
  · rw [hcc] at hheld
    simp only [if_false, Bool.false_eq_true, hk] at hheld ⊢
    rw [hheld (.pipeR k) (.inl rfl) (by simp)]; simp
  · rw [hcc] at hheld
    simp only [if_true, hk] at hheld ⊢
    rw [hheld (.pipeW k) (.inr rfl) (by simp)]; rfl

theorem PipeInv.step {w : PipeWorld} (h : PipeInv w) {op : PipeOp} (hf : FewFiles w op) :
    w.step op ≠ .hangs ∧ ∀ w', w.step op = .done w' → PipeInv w' := by
  cases op with
  | openOwn n =>
    refine ⟨by simp [PipeWorld.step], ?_⟩
    intro w' hs
    simp only [PipeWorld.step, fdOpen, PipeOut.done.injEq] at hs
    subst hs
    refine ⟨?_, ?_, h.files, h.old, h.kid, h.kids⟩
    · intro i hi
      show fdAt (fdPut _ _ _) _ = _
      have := Nat.le_trans (fdFree_le_count w.tab) hf
      rw [fdAt_put, if_neg (by omega)]
      exact h.low i hi
    · intro i k hk
      simp only [fdAt_put] at hk
      split at hk
      · simp at hk
      · exact h.tab i k hk
  | closeOwn fd =>
    simp only [PipeWorld.step]
    split
    · refine ⟨by simp, ?_⟩
      intro w' hs
      injection hs with hs
      subst hs
      refine ⟨?_, ?_, h.files, h.old, h.kid, h.kids⟩
      · intro i hi
        show fdAt (fdPut _ _ _) _ = _
        rw [fdAt_put]
        split
        · rfl
        · exact h.low i hi
      · intro i k hk
        simp only [fdAt_put] at hk
        split at hk
        · simp at hk
        · exact h.tab i k hk
    · exact ⟨by simp, by simp⟩
  | openRead exec =>
    rcases e : fdPipe w.tab w.next with ⟨r, wr, t⟩
    simp only [PipeWorld.step, e]
    refine ⟨by simp, ?_⟩
    intro w' hs
    injection hs with hs
    subst hs
    obtain ⟨tab, h1, h2⟩ := childRead_tab t wr exec
    have := h.new hf false r wr t e (if exec then some tab else none) (by
      intro tab' ht i d hd
      split at ht
      · cases ht
        rcases h2 i d hd with h3 | h3 | h3
        · exact .inl h3
        · exact .inr (.inr (.inl h3))
        · exact .inr (.inr (.inr h3))
      · cases ht)
    rw [h1]
    cases exec <;> exact this
  | openWrite exec creates =>
    rcases e : fdPipe w.tab w.next with ⟨r, wr, t⟩
    simp only [PipeWorld.step, e]
    refine ⟨by simp, ?_⟩
    intro w' hs
    injection hs with hs
    subst hs
    cases hc : childWrite t r exec creates with
    | runs tab =>
      exact h.new hf true r wr t e (some tab) (by
        intro tab' ht
        cases ht
        exact childWrite_tab t r exec creates tab hc)
    | exits tab => exact h.new hf true r wr t e none (by intro tab' ht; cases ht)
  | close k finished =>
    simp only [PipeWorld.step]
    split
    · exact ⟨by simp, by simp⟩
    · rename_i k' fd hfind
      have hk' : k' = k := by simpa using List.find?_some hfind
      subst hk'
      obtain ⟨h1, h2⟩ := h.closed (List.mem_of_find?_eq_some hfind)
      split
      · refine ⟨by simp, ?_⟩
        intro w' hs
        injection hs with hs
        subst hs
        exact h1
      · rename_i c hcf
        have hc : c ∈ w.kids := List.mem_of_find?_eq_some hcf
        have hp : c.pipe = k' := by simpa using List.find?_some hcf
        rw [h1.ends h2 hc hp finished]
        refine ⟨by simp, ?_⟩
        intro w' hs
        simp only [if_true, PipeOut.done.injEq] at hs
        subst hs
        exact h1.drop _
  | childEnds k =>
    refine ⟨by simp [PipeWorld.step], ?_⟩
    intro w' hs
    simp only [PipeWorld.step, PipeOut.done.injEq] at hs
    subst hs
    exact h.drop _

/-- C103 (partial: the program never has more than 30 files): whatever compressed files and URLs a program opens, and in
whatever order it closes them, closing one never hangs; also if it has not been read to its end. -/
theorem close_never_hangs_partial (own : List (Option Nat)) (ho : own.length ≤ 32) (w : PipeWorld)
    (h : PipeReach own FewFiles w) (op : PipeOp) (hf : FewFiles w op) : w.step op ≠ .hangs := by
  have hi : PipeInv w := by
    induction h with
    | init => exact .init own ho
    | step _ hp hs ih => exact ((ih hp).step hp).2 _ hs
  exact (hi.step hf).1

/-- Which children run: an operation starts at most the child of the file it opens, and it ends the child of the file that
is closed and the one that is told to end, and no other. -/
theorem running_children {w w' : PipeWorld} {op : PipeOp} (hs : w.step op = .done w') :
    (∀ c ∈ w'.kids, c ∈ w.kids ∨ c.pipe = w.next ∧ ((∃ e, op = .openRead e) ∨ ∃ e, op = .openWrite e true)) ∧
    ∀ c ∈ w.kids, (c ∈ w'.kids ↔ op ≠ .childEnds c.pipe ∧ ∀ b, op ≠ .close c.pipe b) := by
  cases op with
  | openOwn n => simp only [PipeWorld.step, PipeOut.done.injEq] at hs; subst hs; simp +contextual
  | closeOwn fd =>
    simp only [PipeWorld.step] at hs
    split at hs <;> simp only [PipeOut.done.injEq, reduceCtorEq] at hs
    subst hs; simp +contextual
  | openRead exec =>
    simp only [PipeWorld.step, PipeOut.done.injEq] at hs
    subst hs
    split <;> simp +contextual [or_imp]
  | openWrite exec creates =>
    simp only [PipeWorld.step, PipeOut.done.injEq] at hs
    subst hs
    split
    · rename_i h
      have hc : creates = true := by
        cases creates
        · simp [childWrite] at h
        · rfl
      subst hc
      simp +contextual [or_imp]
    · simp +contextual [or_imp]
  | close k finished =>
    simp only [PipeWorld.step] at hs
    split at hs
    · cases hs
    · split at hs
      · rename_i hn
        injection hs with hs
        subst hs
        refine ⟨fun c hc => .inl hc, fun c hc => ?_⟩
        have := List.find?_eq_none.1 hn c hc
        simp at this
        simp only [PipeOp.close.injEq, ne_eq, reduceCtorEq, not_false_eq_true, true_and, not_and]
        exact ⟨fun _ b hb => absurd hb.symm this, fun _ => hc⟩
      · split at hs
        · injection hs with hs
          subst hs
          refine ⟨fun c hc => .inl ((List.mem_filter.1 hc).1), fun c hc => ?_⟩
          simp only [List.mem_filter, bne_iff_ne, ne_eq, reduceCtorEq, not_false_eq_true, true_and, PipeOp.close.injEq,
            not_and]
          exact ⟨fun h b hb => absurd hb.symm h.2, fun h => ⟨hc, fun he => h finished he.symm rfl⟩⟩
        · cases hs
  | childEnds k =>
    simp only [PipeWorld.step, PipeOut.done.injEq] at hs
    subst hs
    refine ⟨fun c hc => .inl ((List.mem_filter.1 hc).1), fun c hc => ?_⟩
    simp only [List.mem_filter, bne_iff_ne, ne_eq, PipeOp.childEnds.injEq, reduceCtorEq, not_false_eq_true, implies_true,
      and_true]
    exact ⟨fun h he => h.2 he.symm, fun h => ⟨hc, fun he => h he.symm⟩⟩

theorem init_at (own : List (Option Nat)) (hs : ∀ o ∈ own, o.isSome) (i : Nat) :
    (fdAt (PipeWorld.init own).tab i).isSome = decide (i < own.length) := by
  simp only [fdAt, PipeWorld.init, List.getElem?_map]
  by_cases h : i < own.length
  · have := hs own[i] (List.getElem_mem h)
    obtain ⟨n, hn⟩ := Option.isSome_iff_exists.1 this
    rw [List.getElem?_eq_getElem h, hn]
    simp [h]
  · rw [List.getElem?_eq_none (by omega)]
    simp [h]

theorem init_free (own : List (Option Nat)) (hs : ∀ o ∈ own, o.isSome) (i : Nat) (h : own.length ≤ i) :
    fdAt (PipeWorld.init own).tab i = none := by
  have := init_at own hs i
  rw [decide_eq_false (by omega)] at this
  exact Option.not_isSome_iff_eq_none.1 (by simp [this])

theorem init_pipe (own : List (Option Nat)) (hs : ∀ o ∈ own, o.isSome) :
    ∃ t', fdPipe (PipeWorld.init own).tab 0 = (own.length, own.length + 1, t') ∧
      ∀ j, fdAt t' j = if j = own.length + 1 then some (.pipeW 0) else if j = own.length then some (.pipeR 0)
        else fdAt (PipeWorld.init own).tab j := by
  obtain ⟨r, w, t', e, er, hrw, hr, hw, hb, ht⟩ := fdPipe_spec (PipeWorld.init own).tab 0
  have h1 : r = own.length := by
    rw [er]
    refine fdFree_eq _ _ (init_free own hs _ (Nat.le_refl _)) ?_
    intro j hj
    rw [init_at own hs]; simpa using hj
  subst h1
  have h2 : w = own.length + 1 := by
    by_contra hne
    have := hb (own.length + 1) (by omega) (by omega)
    rw [init_at own hs] at this
    simp at this
    omega
  subst h2
  exact ⟨t', e, ht⟩

/-- C103 fails with more files: a program with 31 files or more opens a compressed file for writing.  When it closes it, it
waits for ever, because the child itself has the other end of the pipe. -/
theorem close_many_files (own : List (Option Nat)) (h : 31 ≤ own.length) (hs : ∀ o ∈ own, o.isSome) (finished : Bool) :
    ∃ w, (PipeWorld.init own).step (.openWrite true true) = .done w ∧ w.step (.close 0 finished) = .hangs := by
  obtain ⟨t', e, ht⟩ := init_pipe own hs
  have hstd : HasStd (PipeWorld.init own).tab := by
    intro i hi
    rw [init_at own hs]; simp; omega
  obtain ⟨tab, h1, -⟩ := child_writes_partial _ 0 hstd
  rw [e] at h1
  simp only at h1
  have h2 : fdAt tab (own.length + 1) = some (.pipeW 0) := by
    have h3 := h1
    simp only [childWrite, if_true, fdOpen] at h3
    split at h3
    · injection h3 with h3
      generalize ht2 : fdPut (closeLow t' own.length) 0 (fdAt (closeLow t' own.length) own.length) = t2 at h3
      have a2 : fdAt t2 (own.length + 1) = some (.pipeW 0) := by
        rw [← ht2, fdAt_put, if_neg (by omega), fdAt_closeLow, if_neg (by omega), ht, if_pos rfl]
      have hopen : ∀ (t : FdTab) (d : ChildFd), fdAt t (own.length + 1) = some (.pipeW 0) →
          fdAt (fdPut t (fdFree t) (some d)) (own.length + 1) = some (.pipeW 0) := by
        intro t d hd
        rw [fdAt_put, if_neg]
        · exact hd
        · intro he
          have := fdFree_none t
          rw [← he, hd] at this; cases this
      rw [← h3]
      exact hopen _ _ (hopen _ _ a2)
    · cases h3
  have e' : fdPipe (PipeWorld.init own).tab (PipeWorld.init own).next = (own.length, own.length + 1, t') := e
  refine ⟨_, by simp only [PipeWorld.step, e', h1]; rfl, ?_⟩
  have hc : tab.contains (some (ChildFd.pipeW 0)) = true := (contains_iff _ _).2 ⟨_, h2⟩
  simp [PipeWorld.step, PipeWorld.init, PipeWorld.ends, PipeWorld.held, hc]
  intro _
  simpa using hc

/-- The same with 32 files or more, if a compressed file is closed before it has been read to its end. -/
theorem close_many_files_reading (own : List (Option Nat)) (h : 32 ≤ own.length) (hs : ∀ o ∈ own, o.isSome) :
    ∃ w, (PipeWorld.init own).step (.openRead true) = .done w ∧ w.step (.close 0 false) = .hangs := by
  obtain ⟨t', e, ht⟩ := init_pipe own hs
  have h2 : ∃ tab, childRead t' (own.length + 1) true = .runs tab ∧ fdAt tab own.length = some (.pipeR 0) := by
    simp only [childRead, if_true, fdOpen]
    refine ⟨_, rfl, ?_⟩
    have hopen : ∀ (t : FdTab) (d : ChildFd), fdAt t own.length = some (.pipeR 0) →
        fdAt (fdPut t (fdFree t) (some d)) own.length = some (.pipeR 0) := by
      intro t d hd
      rw [fdAt_put, if_neg]
      · exact hd
      · intro he
        have := fdFree_none t
        rw [← he, hd] at this; cases this
    apply hopen
    apply hopen
    rw [fdAt_put, if_neg (by omega), fdAt_closeLow, if_neg (by omega), ht, if_neg (by omega), if_pos rfl]
  obtain ⟨tab, h1, h2⟩ := h2
  have e' : fdPipe (PipeWorld.init own).tab (PipeWorld.init own).next = (own.length, own.length + 1, t') := e
  refine ⟨_, by simp only [PipeWorld.step, e', h1]; rfl, ?_⟩
  have hc : tab.contains (some (ChildFd.pipeR 0)) = true := (contains_iff _ _).2 ⟨_, h2⟩
  simp [PipeWorld.step, PipeWorld.init, PipeWorld.ends, PipeWorld.held, hc]
  intro _
  simpa using hc

/-! ### Examples -/

/-- Runs operations as long as there are few files. (for the example only) -/
def runFew (w : PipeWorld) : List PipeOp → Option PipeWorld
  | [] => some w
  | op :: ops =>
    if w.tab.countP (·.isSome) ≤ 30 then
      match w.step op with
      | .done w' => runFew w' ops
      | _ => none
    else none

theorem runFew_reach {own : List (Option Nat)} {w w' : PipeWorld} {ops : List PipeOp} (h : PipeReach own FewFiles w)
    (hr : runFew w ops = some w') : PipeReach own FewFiles w' := by
  induction ops generalizing w with
  | nil => cases hr; exact h
  | cons op ops ih =>
    simp only [runFew] at hr
    split at hr
    · rename_i hf
      split at hr
      · rename_i w1 hs
        exact ih (.step h hf hs) hr
      · cases hr
    · cases hr

/-- The hypotheses can be met: a program with the standard streams opens two compressed files for writing and one for
reading and closes them in another order, and the last one although there is more to read. -/
example : let own := [some 0, some 1, some 2]
    ∃ w, PipeReach own FewFiles w ∧ (w.files = [(2, 3)] ∧ w.kids.length = 1) ∧ FewFiles w (.close 2 false) ∧
      w.step (.close 2 false) = .done ⟨[some (.own 0), some (.own 1), some (.own 2), none, none, none, none], [], 3, []⟩ := by
  intro own
  have h : ((runFew (PipeWorld.init own) [.openWrite true true, .openWrite true true, .openRead true, .close 1 true,
      .close 0 true]).any fun w => (w.files == [(2, 3)] && w.kids.length == 1 && decide (w.tab.countP (·.isSome) ≤ 30) &&
      w.step (.close 2 false) == .done ⟨[some (.own 0), some (.own 1), some (.own 2), none, none, none, none], [], 3, []⟩))
      = true := by decide +kernel
  obtain ⟨w, h1, h2⟩ := (Option.any_eq_true _ _).1 h
  simp only [Bool.and_eq_true, beq_iff_eq, decide_eq_true_eq] at h2
  exact ⟨w, runFew_reach .init h1, h2.1.1, h2.1.2, h2.2⟩

example : HasStd [some (.own 0), some (.own 1), some (.own 2), some (.own 3)] := by
  intro i hi
  rcases (by omega : i = 0 ∨ i = 1 ∨ i = 2) with rfl | rfl | rfl <;> rfl

end Osmium
