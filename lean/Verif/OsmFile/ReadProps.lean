import Verif.OsmFile.Read
import Verif.Pbf.BlobProps

/-
C102: `Osmium::Input::read` gives back what it opened and notices when the file could not be read completely.
-/
namespace Osmium

namespace Spec

/-- Operations with other objects than `j`, none of which is opened on standard input or output. -/
def Elsewhere (j : Nat) (ops : List FdOp) : Prop :=
  ∀ op ∈ ops, op.target ≠ j ∧ ∀ i out, op ≠ .openStd i out

/-- Everything object `j` opened is closed, and no child process it started is left, nor is the object. -/
def AllReleased (w : FdWorld) (j : Nat) : Prop :=
  w.objs j = none ∧ (∀ s, (s, j) ∈ w.opened → (j, some s) ∈ w.closed) ∧
  ∀ p st, (p, j, st) ∈ w.started → w.kids p = none

end Spec

open Spec

theorem step_elsewhere {w w' : FdWorld} {op : FdOp} {b : Bool} {j : Nat} (hs : w.step op = some (w', b))
    (hj : op.target ≠ j) : w'.objs j = w.objs j := by
  have hc : ∀ i o, i ≠ j → (w.closeObj i o).1.objs j = w.objs j := by
    intro i o hi
    unfold FdWorld.closeObj
    have hij : j ≠ i := fun h => hi h.symm
    cases o.fd <;> cases o.child <;> simp only
    · split
      · rfl
      · split
        · rfl
        · simp [Function.update_of_ne hij]
    · simp [Function.update_of_ne hij]
    · split
      · simp [Function.update_of_ne hij]
      · split
        · simp [Function.update_of_ne hij]
        · simp [Function.update_of_ne hij]
  have hij : j ≠ op.target := fun h => hj h.symm
  cases op with
  | new i =>
    simp only [FdWorld.step] at hs
    split at hs
    · cases hs; simp only [FdOp.target] at hij; simp [Function.update_of_ne hij]
    · cases hs
  | copy i k =>
    simp only [FdWorld.step] at hs
    split at hs
    · cases hs; simp only [FdOp.target] at hij; simp [Function.update_of_ne hij]
    · cases hs
  | assign i k =>
    simp only [FdWorld.step] at hs
    split at hs
    · cases hs; simp only [FdOp.target] at hij; simp [Function.update_of_ne hij]
    · cases hs
  | openFile i fd =>
    cases fd with
    | none =>
      simp only [FdWorld.step] at hs
      split at hs
      · cases hs; rfl
      · cases hs
    | some f =>
      simp only [FdWorld.step] at hs
      split at hs
      · cases hs
      · split at hs
        · cases hs; simp only [FdOp.target] at hij; simp [Function.update_of_ne hij]
        · cases hs
  | openStd i out =>
    simp only [FdWorld.step] at hs
    split at hs
    · cases hs
    · cases hs; simp only [FdOp.target] at hij; simp [Function.update_of_ne hij]
  | openPipe i f p st =>
    simp only [FdWorld.step] at hs
    split at hs
    · cases hs
    · split at hs
      · cases hs; simp only [FdOp.target] at hij; simp [Function.update_of_ne hij]
      · cases hs
  | forkFails i f g =>
    simp only [FdWorld.step] at hs
    split at hs
    · cases hs
    · split at hs
      · cases hs; rfl
      · cases hs
  | close i =>
    simp only [FdWorld.step] at hs
    split at hs
    · cases hs
    · rename_i o ho
      have h1 := hc i o hj
      rw [Option.some.inj hs] at h1
      exact h1
  | destroy i =>
    simp only [FdWorld.step] at hs
    split at hs
    · cases hs
    · cases hs
      simp only [FdOp.target] at hij hj
      simp only [Function.update_of_ne hij]
      exact hc _ _ hj

theorem run_elsewhere {ops : List FdOp} {w w' : FdWorld} {bs : List Bool} {j : Nat} (hs : w.run ops = some (w', bs))
    (hj : Elsewhere j ops) : w'.objs j = w.objs j ∧ (FdReach NoStd w → FdReach NoStd w') := by
  induction ops generalizing w bs with
  | nil => cases hs; exact ⟨rfl, id⟩
  | cons op ops ih =>
    simp only [FdWorld.run] at hs
    split at hs
    · cases hs
    · rename_i w1 b h1
      cases h2 : w1.run ops with
      | none => rw [h2] at hs; cases hs
      | some r =>
        rw [h2] at hs
        simp only [Option.map_some, Option.some.injEq, Prod.mk.injEq] at hs
        obtain ⟨hr1, -⟩ := hs
        have h3 := ih (w := w1) (bs := r.2) (by rw [h2, ← hr1]) (fun o ho => hj o (by simp [ho]))
        obtain ⟨ht, hstd⟩ := hj op (by simp)
        refine ⟨h3.1.trans (step_elsewhere h1 ht), fun hw => h3.2 (.step hw ?_ h1)⟩
        cases op <;> first | trivial | exact absurd rfl (hstd _ _)

theorem closeObj_records (w : FdWorld) (i : Nat) (o : FileObj) :
    (w.closeObj i o).1.opened = w.opened ∧ (w.closeObj i o).1.started = w.started := by
  unfold FdWorld.closeObj
  cases o.fd <;> cases o.child <;> simp only [and_self]
  all_goals
    split
    · exact ⟨rfl, rfl⟩
    · split <;> exact ⟨rfl, rfl⟩

theorem step_records {w w' : FdWorld} {op : FdOp} {b : Bool} {j : Nat} (hs : w.step op = some (w', b))
    (hj : op.target ≠ j) : (∀ s, (s, j) ∈ w'.opened → (s, j) ∈ w.opened) ∧
      (∀ p st, (p, j, st) ∈ w'.started → (p, j, st) ∈ w.started) := by
  have hij : j ≠ op.target := fun h => hj h.symm
  cases op with
  | new i =>
    simp only [FdWorld.step] at hs
    split at hs
    · cases hs; exact ⟨fun _ => id, fun _ _ => id⟩
    · cases hs
  | copy i k =>
    simp only [FdWorld.step] at hs
    split at hs
    · cases hs; exact ⟨fun _ => id, fun _ _ => id⟩
    · cases hs
  | assign i k =>
    simp only [FdWorld.step] at hs
    split at hs
    · cases hs; exact ⟨fun _ => id, fun _ _ => id⟩
    · cases hs
  | openFile i fd =>
    cases fd with
    | none =>
      simp only [FdWorld.step] at hs
      split at hs
      · cases hs; exact ⟨fun _ => id, fun _ _ => id⟩
      · cases hs
    | some f =>
      simp only [FdWorld.step] at hs
      split at hs
      · cases hs
      · split at hs
        · cases hs
          simp only [FdOp.target] at hij
          refine ⟨fun s h => ?_, fun _ _ => id⟩
          simpa [hij] using h
        · cases hs
  | openStd i out =>
    simp only [FdWorld.step] at hs
    split at hs
    · cases hs
    · cases hs; exact ⟨fun _ => id, fun _ _ => id⟩
  | openPipe i f p st =>
    simp only [FdWorld.step] at hs
    split at hs
    · cases hs
    · split at hs
      · cases hs
        simp only [FdOp.target] at hij
        refine ⟨fun s h => ?_, fun p st h => ?_⟩
        · simpa [hij] using h
        · simpa [hij] using h
      · cases hs
  | forkFails i f g =>
    simp only [FdWorld.step] at hs
    split at hs
    · cases hs
    · split at hs
      · cases hs
        simp only [FdOp.target] at hij
        refine ⟨fun s h => ?_, fun _ _ => id⟩
        simpa [hij] using h
      · cases hs
  | close i =>
    simp only [FdWorld.step] at hs
    split at hs
    · cases hs
    · rename_i o ho
      have h1 := closeObj_records w i o
      rw [Option.some.inj hs] at h1
      simp only at h1
      rw [h1.1, h1.2]
      exact ⟨fun _ => id, fun _ _ => id⟩
  | destroy i =>
    simp only [FdWorld.step] at hs
    split at hs
    · cases hs
    · rename_i o ho
      cases hs
      simp only [closeObj_records]
      exact ⟨fun _ => id, fun _ _ => id⟩

theorem run_records {ops : List FdOp} {w w' : FdWorld} {bs : List Bool} {j : Nat} (hs : w.run ops = some (w', bs))
    (hj : Elsewhere j ops) : (∀ s, (s, j) ∈ w'.opened → (s, j) ∈ w.opened) ∧
      (∀ p st, (p, j, st) ∈ w'.started → (p, j, st) ∈ w.started) := by
  induction ops generalizing w bs with
  | nil => cases hs; exact ⟨fun _ => id, fun _ _ => id⟩
  | cons op ops ih =>
    simp only [FdWorld.run] at hs
    split at hs
    · cases hs
    · rename_i w1 b h1
      cases h2 : w1.run ops with
      | none => rw [h2] at hs; cases hs
      | some r =>
        rw [h2] at hs
        simp only [Option.map_some, Option.some.injEq, Prod.mk.injEq] at hs
        obtain ⟨hr1, -⟩ := hs
        have h3 := ih (w := w1) (bs := r.2) (by rw [h2, ← hr1]) (fun o ho => hj o (by simp [ho]))
        have h4 := step_records h1 (hj op (by simp)).1
        exact ⟨fun s h => h4.1 s (h3.1 s h), fun p st h => h4.2 p st (h3.2 p st h)⟩

/-- After the destructor of an object with a descriptor nothing is left. -/
theorem destroy_releases {w w' : FdWorld} {b : Bool} {j f : Nat} {o : FileObj} (ho : w.objs j = some o) (hf : o.fd = some f)
    (hs : w.step (.destroy j) = some (w', b)) :
    w'.objs j = none ∧ (j, w.fds f) ∈ w'.closed ∧ (∀ p, o.child = some p → w'.kids p = none) ∧
      w'.opened = w.opened ∧ w'.started = w.started := by
  simp only [FdWorld.step, ho] at hs
  cases hs
  refine ⟨by simp, ?_, ?_, (closeObj_records w j o).1, (closeObj_records w j o).2⟩
  · simp only [FdWorld.closeObj, hf]
    cases o.child with
    | none => simp
    | some p =>
      simp only
      split
      · simp
      · split <;> simp
  · intro p hp
    simp only [FdWorld.closeObj, hf, hp]
    split
    · rename_i h; exact h
    · split <;> simp

/-- The object the reader opened, in the middle of `read`. -/
theorem open_spec {w w1 : FdWorld} {b1 : Bool} {i j : Nat} {how : ReadOpen} {w2 : FdWorld}
    (h1 : w.step (.copy j i) = some (w1, b1)) (h2 : w1.step (how.op j) = some (w2, false))
    (hn : ∀ s, (s, j) ∉ w.opened) (hk : ∀ p st, (p, j, st) ∉ w.started) :
    ∃ f o, w2.objs j = some o ∧ o.fd = some f ∧ w2.fds f = some w.serial ∧ (w.serial, j) ∈ w2.opened ∧
      (∀ s, (s, j) ∈ w2.opened → s = w.serial) ∧ (∀ p st, (p, j, st) ∈ w2.started → o.child = some p) ∧
      (how = .file (some f) ∨ ∃ p st, how = .pipe f p st ∧ o.child = some p) := by
  simp only [FdWorld.step] at h1
  split at h1
  · cases h1
    cases how with
    | file fd =>
      cases fd with
      | none => simp [FdWorld.step, ReadOpen.op] at h2
      | some f =>
        simp only [FdWorld.step, ReadOpen.op, Function.update_self] at h2
        split at h2
        · cases h2
          refine ⟨f, _, by simp only [Function.update_self]; rfl, rfl, by simp, by simp, ?_, ?_, .inl rfl⟩
          · intro s hs
            simp only [List.mem_append, List.mem_singleton, Prod.mk.injEq, and_true] at hs
            exact hs.resolve_left (hn s)
          · intro p st h; exact absurd h (hk p st)
        · cases h2
    | pipe f p st =>
      simp only [FdWorld.step, ReadOpen.op, Function.update_self] at h2
      split at h2
      · cases h2
        refine ⟨f, _, by simp only [Function.update_self]; rfl, rfl, by simp, by simp, ?_, ?_, .inr ⟨p, st, rfl, rfl⟩⟩
        · intro s hs
          simp only [List.mem_append, List.mem_singleton, Prod.mk.injEq, and_true] at hs
          exact hs.resolve_left (hn s)
        · intro q st' h
          simp only [List.mem_append, List.mem_singleton, Prod.mk.injEq, true_and] at h
          rcases h with h | ⟨rfl, -⟩
          · exact absurd h (hk _ _)
          · rfl
      · cases h2
    | forkFails f g =>
      simp only [FdWorld.step, ReadOpen.op, Function.update_self] at h2
      split at h2 <;> cases h2
  · cases h1

/-- C102 (partial: unless the reader or the handler throws an exception, or `fork` fails): after `read` everything the
reader opened is closed, and its child process has been waited for, whatever the handler does with other files in the
meantime. -/
theorem read_releases_partial (w : FdWorld) (hw : FdReach NoStd w) (i j : Nat) (how : ReadOpen) (during : List FdOp)
    (parse : ParseEnd) (w' : FdWorld) (r : ParseEnd)
    (hrun : w.inputRead i j how during parse = some (w', r))
    (hnew : (∀ s, (s, j) ∉ w.opened) ∧ ∀ p st, (p, j, st) ∉ w.started) (hdur : Elsewhere j during)
    (hfork : ∀ a b, how ≠ .forkFails a b) (hp : parse = .returned ∨ how = .file none) : AllReleased w' j := by
  unfold FdWorld.inputRead at hrun
  split at hrun
  · cases hrun
  · rename_i w1 b1 h1
    split at hrun
    · cases hrun
    · -- opening the file fails
      rename_i w2 h2
      cases how with
      | forkFails a b => exact absurd rfl (hfork a b)
      | pipe f p st =>
        simp only [FdWorld.step, ReadOpen.op] at h2
        split at h2
        · cases h2
        · split at h2 <;> simp at h2
      | file fd =>
        cases fd with
        | some f =>
          simp only [FdWorld.step, ReadOpen.op] at h2
          split at h2
          · cases h2
          · split at h2 <;> simp at h2
        | none =>
          simp only [FdWorld.step] at h1
          split at h1
          · cases h1
            simp only [FdWorld.step, ReadOpen.op, Function.update_self, Option.isSome_some, if_true, Option.some.injEq,
              Prod.mk.injEq, and_true] at h2
            subst h2
            simp only [FdWorld.step, Function.update_self, FdWorld.closeObj, Option.map_some, Option.some.injEq,
              Prod.mk.injEq] at hrun
            rw [← hrun.1]
            refine ⟨by simp, fun s hs => absurd hs (hnew.1 s), fun p st hs => absurd hs (hnew.2 p st)⟩
          · cases h1
    · rename_i w2 h2
      obtain ⟨f, o, e1, e2, e3, e4, e5, e6, e7⟩ := open_spec h1 h2 hnew.1 hnew.2
      split at hrun
      · cases hrun
      · rename_i w3 bs h3
        obtain ⟨g1, g2⟩ := run_elsewhere h3 hdur
        obtain ⟨g3, g4⟩ := run_records h3 hdur
        have hr2 : FdReach NoStd w2 := by
          refine .step (.step hw ?_ h1) ?_ h2
          · trivial
          · cases how <;> trivial
        have hr3 := g2 hr2
        rcases hp with rfl | rfl
        · simp only at hrun
          cases hd : w3.step (.destroy j) with
          | none => rw [hd] at hrun; cases hrun
          | some q =>
            rw [hd] at hrun
            simp only [Option.map_some, Option.some.injEq, Prod.mk.injEq] at hrun
            rw [← hrun.1]
            obtain ⟨d1, d2, d3, d4, d5⟩ := destroy_releases (g1.trans e1) e2 hd
            refine ⟨d1, ?_, ?_⟩
            · intro s hs
              rw [d4] at hs
              have hs2 := e5 s (g3 s hs)
              obtain ⟨t, ht1, ht2⟩ := (fdInv_reach hr3).held j f ⟨o, g1.trans e1, e2⟩
              have := e5 t (g3 t ht2)
              rw [ht1, this] at d2
              rw [hs2]; exact d2
            · intro p st hs
              rw [d5] at hs
              exact d3 p (e6 p st (g4 p st hs))
        · simp [FdWorld.step, ReadOpen.op] at h2

/-- C102, the result: `read` returns exactly if the file could be opened and `parse` returned.  The status the child
process ends with does not matter. -/
theorem read_result (w : FdWorld) (i j : Nat) (how : ReadOpen) (during : List FdOp) (parse : ParseEnd) (w' : FdWorld)
    (r : ParseEnd) (hrun : w.inputRead i j how during parse = some (w', r)) :
    r = .returned ↔ parse = .returned ∧ ((∃ f, how = .file (some f)) ∨ ∃ f p st, how = .pipe f p st) := by
  unfold FdWorld.inputRead at hrun
  split at hrun
  · cases hrun
  · rename_i w1 b1 h1
    split at hrun
    · cases hrun
    · rename_i w2 h2
      have hr : r = .threw (.exn "open failed") := by
        cases hd : w2.step (.destroy j) with
        | none => rw [hd] at hrun; cases hrun
        | some q => rw [hd] at hrun; cases hrun; rfl
      subst hr
      simp only [reduceCtorEq, false_iff, not_and, not_or, not_exists]
      intro _
      cases how with
      | forkFails a b => simp
      | pipe f p st =>
        simp only [FdWorld.step, ReadOpen.op] at h2
        split at h2
        · cases h2
        · split at h2 <;> simp at h2
      | file fd =>
        cases fd with
        | none => simp
        | some f =>
          simp only [FdWorld.step, ReadOpen.op] at h2
          split at h2
          · cases h2
          · split at h2 <;> simp at h2
    · rename_i w2 h2
      have hh : (∃ f, how = .file (some f)) ∨ ∃ f p st, how = .pipe f p st := by
        cases how with
        | forkFails a b =>
          simp only [FdWorld.step, ReadOpen.op] at h2
          split at h2
          · cases h2
          · split at h2 <;> simp at h2
        | pipe f p st => exact .inr ⟨f, p, st, rfl⟩
        | file fd =>
          cases fd with
          | none => simp [FdWorld.step, ReadOpen.op] at h2
          | some f => exact .inl ⟨f, rfl⟩
      split at hrun
      · cases hrun
      · rename_i w3 bs h3
        cases parse with
        | threw e => cases hrun; simp
        | returned =>
          simp only at hrun
          cases hd : w3.step (.destroy j) with
          | none => rw [hd] at hrun; cases hrun
          | some q => rw [hd] at hrun; cases hrun; simp [hh]

/-! ### What goes wrong otherwise -/

/-- C102 fails for exceptions: if `parse` throws, the reader's file is open and its object exists for ever, whatever the
program does with other files afterwards. -/
theorem read_throw_leaks (w : FdWorld) (hw : FdReach NoStd w) (i j : Nat) (how : ReadOpen) (during : List FdOp)
    (e : Fail) (w' : FdWorld) (r : ParseEnd) (hrun : w.inputRead i j how during (.threw e) = some (w', r))
    (hnew : (∀ s, (s, j) ∉ w.opened) ∧ ∀ p st, (p, j, st) ∉ w.started) (hdur : Elsewhere j during)
    (hok : (∃ f, how = .file (some f)) ∨ ∃ f p st, how = .pipe f p st)
    (later : List FdOp) (hl : Elsewhere j later) (w'' : FdWorld) (bs : List Bool) (hrl : w'.run later = some (w'', bs)) :
    (w''.objs j).isSome ∧ ∃ s f, (s, j) ∈ w''.opened ∧ w''.fds f = some s ∧ ∀ k, (k, some s) ∉ w''.closed := by
  unfold FdWorld.inputRead at hrun
  split at hrun
  · cases hrun
  · rename_i w1 b1 h1
    split at hrun
    · cases hrun
    · rename_i w2 h2
      rcases hok with ⟨f, rfl⟩ | ⟨f, p, st, rfl⟩
      · simp only [FdWorld.step, ReadOpen.op] at h2
        split at h2
        · cases h2
        · split at h2 <;> simp at h2
      · simp only [FdWorld.step, ReadOpen.op] at h2
        split at h2
        · cases h2
        · split at h2 <;> simp at h2
    · rename_i w2 h2
      obtain ⟨f, o, e1, e2, e3, e4, e5, e6, e7⟩ := open_spec h1 h2 hnew.1 hnew.2
      split at hrun
      · cases hrun
      · rename_i w3 bs3 h3
        cases hrun
        obtain ⟨g1, g2⟩ := run_elsewhere h3 hdur
        obtain ⟨g3, g4⟩ := run_elsewhere hrl hl
        have hr2 : FdReach NoStd w2 := by
          refine .step (.step hw ?_ h1) ?_ h2
          · trivial
          · cases how <;> trivial
        have hr := fdInv_reach (g4 (g2 hr2))
        have ho : w''.objs j = some o := g3.trans (g1.trans e1)
        obtain ⟨s, ht1, ht2⟩ := hr.held j f ⟨o, ho, e2⟩
        exact ⟨by simp [ho], s, f, ht2, ht1, fun k => hr.fresh f s k ht1⟩

/-- C102 fails for child processes that fail: a PBF file is fetched from a server that cannot be reached; `curl` writes
nothing and ends with an error.  `read` returns as if the file were empty. -/
theorem read_failed_download (c : PbfCodec) (ft : FileType) (h : Stops) (chunks : Nat → Nat) (w w' : FdWorld)
    (i j f p : Nat) (st : Int) (r : ParseEnd)
    (hrun : w.inputRead i j (.pipe f p st) [] (pbfParse c ft h ⟨[], chunks⟩).2 = some (w', r)) :
    (pbfParse c ft h ⟨[], chunks⟩) = ([.final], .returned) ∧ r = .returned := by
  have e : pbfParse c ft h ⟨[], chunks⟩ = ([.final], .returned) := by
    unfold pbfParse
    rw [readBlobs_empty]
    simp [parseBlobs, Events.seq, parseFrame, deliver, afterAndBefore]
  refine ⟨e, ?_⟩
  rw [e] at hrun
  exact (read_result _ _ _ _ _ _ _ _ hrun).2 ⟨rfl, .inr ⟨f, p, st, rfl⟩⟩

/-- The hypotheses can be met: a file is read through `zcat`, which fails, while the handler writes another file. -/
example : ∃ w w', FdReach NoStd w ∧
    w.inputRead 0 1 (.pipe 3 100 1) [.new 2, .openFile 2 (some 4), .close 2] .returned = some (w', .returned) ∧
    Elsewhere 1 [.new 2, .openFile 2 (some 4), .close 2] ∧ w'.closed = [(2, some 4), (1, some 3)] ∧
    (∀ s, (s, 1) ∉ w.opened) ∧ (∀ p st, (p, 1, st) ∉ w.started) ∧ w'.started = [(100, 1, 1)] := by
  refine ⟨_, _, .step (op := .new 0) .init trivial rfl, rfl, ?_, rfl, ?_, ?_, rfl⟩
  · intro op hop
    simp only [List.mem_cons, List.not_mem_nil, or_false] at hop
    rcases hop with rfl | rfl | rfl <;> simp [FdOp.target]
  · intro s h; simp [FdWorld.init] at h
  · intro p st h; simp [FdWorld.init] at h

/-- The same if `parse` throws: descriptor 3 stays open and the child process is not waited for. -/
example : ∃ w w', FdReach NoStd w ∧
    w.inputRead 0 1 (.pipe 3 100 1) [] (.threw (.exn "read error")) = some (w', .threw (.exn "read error")) ∧
    w'.fds 3 = some 3 ∧ w'.kids 100 = some 1 ∧ w'.closed = [] :=
  ⟨_, _, .step (op := .new 0) .init trivial rfl, rfl, rfl, rfl, rfl⟩

end Osmium
