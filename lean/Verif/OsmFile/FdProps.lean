import Verif.OsmFile.Fds

/-
C51: ownership of file descriptors and child processes.
-/
namespace Osmium

namespace Spec

/-- No object is opened on standard input or output. -/
def NoStd (_ : FdWorld) : FdOp → Prop
  | .openStd _ _ => False
  | _ => True

/-- No object is opened or assigned to while it has a file open, and `fork` does not fail. -/
def Careful (w : FdWorld) : FdOp → Prop
  | .openStd _ _ => False
  | .forkFails _ _ _ => False
  | .assign i _ => ∀ o, w.objs i = some o → o.fd = none
  | .openFile i _ => ∀ o, w.objs i = some o → o.fd = none
  | .openPipe i _ _ _ => ∀ o, w.objs i = some o → o.fd = none
  | _ => True

/-- The numbers of child processes are not used twice. -/
def FreshPids (w : FdWorld) : FdOp → Prop
  | .openPipe _ _ p _ => p ∉ w.started.map Prod.fst
  | _ => True

end Spec

open Spec

/-- Object `i` has the file descriptor `f`. -/
def FdOwner (w : FdWorld) (i f : Nat) : Prop := ∃ o, w.objs i = some o ∧ o.fd = some f

/-- The invariant for file descriptors. -/
structure FdInv (w : FdWorld) : Prop where
  held : ∀ i f, FdOwner w i f → ∃ s, w.fds f = some s ∧ (s, i) ∈ w.opened
  distinct : ∀ i j f, FdOwner w i f → FdOwner w j f → i = j
  small : ∀ f s, w.fds f = some s → s < w.serial
  inj : ∀ f g s, w.fds f = some s → w.fds g = some s → f = g
  fresh : ∀ f s i, w.fds f = some s → (i, some s) ∉ w.closed
  closed : ∀ e ∈ w.closed, ∃ s, e.2 = some s ∧ (s, e.1) ∈ w.opened
  nodup : (w.closed.map Prod.snd).Nodup
  lt : ∀ e ∈ w.opened, e.1 < w.serial
  uniq : (w.opened.map Prod.fst).Nodup

theorem fdInv_init : FdInv FdWorld.init := by
  constructor <;> simp [FdWorld.init, FdOwner]
  intro f s h; omega

/-- Objects only lose descriptors. -/
theorem fdInv_forget {w w' : FdWorld} (h : FdInv w) (ho : ∀ i f, FdOwner w' i f → FdOwner w i f)
    (h1 : w'.fds = w.fds) (h2 : w'.serial = w.serial) (h3 : w'.opened = w.opened)
    (h4 : w'.closed = w.closed) : FdInv w' := by
  constructor
  · rw [h1, h3]; exact fun i f hf => h.held i f (ho i f hf)
  · exact fun i j f hi hj => h.distinct i j f (ho i f hi) (ho j f hj)
  · rw [h1, h2]; exact h.small
  · rw [h1]; exact h.inj
  · rw [h1, h4]; exact h.fresh
  · rw [h3, h4]; exact h.closed
  · rw [h4]; exact h.nodup
  · rw [h2, h3]; exact h.lt
  · rw [h3]; exact h.uniq

/-- A descriptor is opened, and object `i` may get it. -/
theorem fdInv_open {w w' : FdWorld} (h : FdInv w) (i f : Nat) (hf : w.fds f = none)
    (ho : ∀ k g, FdOwner w' k g → FdOwner w k g ∨ (k = i ∧ g = f))
    (h1 : w'.fds = Function.update w.fds f (some w.serial)) (h2 : w'.serial = w.serial + 1)
    (h3 : w'.opened = w.opened ++ [(w.serial, i)]) (h4 : w'.closed = w.closed) : FdInv w' := by
  have hne : ∀ k g, FdOwner w k g → g ≠ f := by
    rintro k g hk rfl
    obtain ⟨s, hs, -⟩ := h.held k g hk
    rw [hf] at hs; cases hs
  have hclosed : ∀ k, (k, some w.serial) ∉ w.closed := by
    intro k hk
    obtain ⟨s, e, hs⟩ := h.closed _ hk
    have := h.lt _ hs
    simp only [Option.some.injEq] at e
    simp only at this
    omega
  constructor
  · intro k g hk
    rw [h1, h3]
    rcases ho k g hk with hk | ⟨rfl, rfl⟩
    · rw [Function.update_of_ne (hne k g hk)]
      obtain ⟨s, hs, hm⟩ := h.held k g hk
      exact ⟨s, hs, by simp [hm]⟩
    · exact ⟨w.serial, by simp, by simp⟩
  · intro k l g hk hl
    rcases ho k g hk with hk | ⟨e1, e2⟩ <;> rcases ho l g hl with hl | ⟨e3, e4⟩
    · exact h.distinct k l g hk hl
    · exact absurd e4 (hne _ _ hk)
    · exact absurd e2 (hne _ _ hl)
    · rw [e1, e3]
  · intro g s hg
    rw [h1] at hg
    rw [h2]
    by_cases e : g = f
    · subst e; simp at hg; omega
    · rw [Function.update_of_ne e] at hg
      have := h.small g s hg; omega
  · intro g k s hg hk
    rw [h1] at hg hk
    by_cases e : g = f <;> by_cases e' : k = f
    · rw [e, e']
    · subst e
      rw [Function.update_of_ne e'] at hk
      simp at hg
      have := h.small k s hk; omega
    · subst e'
      rw [Function.update_of_ne e] at hg
      simp at hk
      have := h.small g s hg; omega
    · rw [Function.update_of_ne e] at hg
      rw [Function.update_of_ne e'] at hk
      exact h.inj g k s hg hk
  · intro g s k hg
    rw [h4]
    rw [h1] at hg
    by_cases e : g = f
    · subst e
      simp at hg
      subst hg
      exact hclosed k
    · rw [Function.update_of_ne e] at hg
      exact h.fresh g s k hg
  · intro e he
    rw [h4] at he
    rw [h3]
    obtain ⟨s, h5, h6⟩ := h.closed e he
    exact ⟨s, h5, by simp [h6]⟩
  · rw [h4]; exact h.nodup
  · intro e he
    rw [h3] at he
    rw [h2]
    rcases List.mem_append.1 he with he | he
    · have := h.lt e he; omega
    · simp only [List.mem_singleton] at he; subst he; simp
  · rw [h3, List.map_append, List.nodup_append]
    refine ⟨h.uniq, by simp, ?_⟩
    intro a ha b hb
    obtain ⟨e, he, rfl⟩ := List.mem_map.1 ha
    have := h.lt e he
    simp only [List.map_cons, List.map_nil, List.mem_singleton] at hb
    omega

/-- The descriptor of object `i` is closed. -/
theorem fdInv_close {w w' : FdWorld} (h : FdInv w) (i f : Nat) (hi : FdOwner w i f)
    (ho : ∀ k g, FdOwner w' k g → FdOwner w k g ∧ k ≠ i)
    (h1 : w'.fds = Function.update w.fds f none) (h2 : w'.serial = w.serial)
    (h3 : w'.opened = w.opened) (h4 : w'.closed = w.closed ++ [(i, w.fds f)]) : FdInv w' := by
  obtain ⟨s, hs, hm⟩ := h.held i f hi
  have hne : ∀ k g, FdOwner w' k g → g ≠ f := by
    rintro k g hk rfl
    exact (ho k g hk).2 (h.distinct k i g (ho k g hk).1 hi)
  have hup : ∀ g r, w'.fds g = some r → g ≠ f ∧ w.fds g = some r := by
    intro g r hg
    rw [h1] at hg
    by_cases e : g = f
    · subst e; simp at hg
    · rw [Function.update_of_ne e] at hg; exact ⟨e, hg⟩
  constructor
  · intro k g hk
    rw [h1, h3, Function.update_of_ne (hne k g hk)]
    exact h.held k g (ho k g hk).1
  · exact fun k l g hk hl => h.distinct k l g (ho k g hk).1 (ho l g hl).1
  · intro g r hg
    rw [h2]; exact h.small g r (hup g r hg).2
  · intro g k r hg hk
    exact h.inj g k r (hup g r hg).2 (hup k r hk).2
  · intro g r k hg
    obtain ⟨e, hg⟩ := hup g r hg
    rw [h4, hs]
    intro hmem
    rcases List.mem_append.1 hmem with hmem | hmem
    · exact h.fresh g r k hg hmem
    · simp only [List.mem_singleton, Prod.mk.injEq, Option.some.injEq] at hmem
      rw [← hmem.2] at hs
      exact e (h.inj g f r hg hs)
  · intro e he
    rw [h4, hs] at he
    rw [h3]
    rcases List.mem_append.1 he with he | he
    · exact h.closed e he
    · simp only [List.mem_singleton] at he
      subst he
      exact ⟨s, rfl, hm⟩
  · rw [h4, hs, List.map_append, List.nodup_append]
    refine ⟨h.nodup, by simp, ?_⟩
    rintro a ha b hb rfl
    simp only [List.map_cons, List.map_nil, List.mem_singleton] at hb
    obtain ⟨e, he, rfl⟩ := List.mem_map.1 ha
    obtain ⟨k, r⟩ := e
    simp only at hb
    subst hb
    exact h.fresh f s k hs he
  · rw [h2, h3]; exact h.lt
  · rw [h3]; exact h.uniq

theorem owner_update {w w' : FdWorld} {i : Nat} {o' : Option FileObj}
    (h : w'.objs = Function.update w.objs i o') (k g : Nat) :
    FdOwner w' k g ↔ (k ≠ i ∧ FdOwner w k g) ∨ (k = i ∧ ∃ o, o' = some o ∧ o.fd = some g) := by
  unfold FdOwner
  rw [h]
  by_cases e : k = i
  · subst e; simp
  · simp [e, Function.update_of_ne e]

/-- `close` in the terms of the invariant: what becomes of the parts of the world. -/
theorem closeObj_spec (w : FdWorld) (i : Nat) (o : FileObj) (ho : w.objs i = some o) :
    (w.closeObj i o).1.serial = w.serial ∧ (w.closeObj i o).1.opened = w.opened ∧
    (w.closeObj i o).1.started = w.started ∧
    (∃ o', (w.closeObj i o).1.objs = Function.update w.objs i (some o') ∧ o'.fd = none) ∧
    (match o.fd with
     | some f => (w.closeObj i o).1.fds = Function.update w.fds f none ∧
        (w.closeObj i o).1.closed = w.closed ++ [(i, w.fds f)]
     | none => (w.closeObj i o).1.fds = w.fds ∧ (w.closeObj i o).1.closed = w.closed) := by
  obtain ⟨fd, child⟩ := o
  have hid : Function.update w.objs i (some ⟨fd, child⟩) = w.objs := by
    rw [← ho]; exact Function.update_eq_self i w.objs
  cases fd <;> cases child <;> simp only [FdWorld.closeObj]
  · exact ⟨(by first | trivial | rfl), (by first | trivial | rfl), (by first | trivial | rfl), ⟨_, hid.symm, rfl⟩, (by first | trivial | rfl), (by first | trivial | rfl)⟩
  · split
    · exact ⟨(by first | trivial | rfl), (by first | trivial | rfl), (by first | trivial | rfl), ⟨_, hid.symm, rfl⟩, (by first | trivial | rfl), (by first | trivial | rfl)⟩
    · split
      · exact ⟨(by first | trivial | rfl), (by first | trivial | rfl), (by first | trivial | rfl), ⟨_, hid.symm, rfl⟩, (by first | trivial | rfl), (by first | trivial | rfl)⟩
      · exact ⟨(by first | trivial | rfl), (by first | trivial | rfl), (by first | trivial | rfl), ⟨_, rfl, rfl⟩, (by first | trivial | rfl), (by first | trivial | rfl)⟩
  · exact ⟨(by first | trivial | rfl), (by first | trivial | rfl), (by first | trivial | rfl), ⟨_, rfl, rfl⟩, (by first | trivial | rfl), (by first | trivial | rfl)⟩
  · split
    · exact ⟨(by first | trivial | rfl), (by first | trivial | rfl), (by first | trivial | rfl), ⟨_, rfl, rfl⟩, (by first | trivial | rfl), (by first | trivial | rfl)⟩
    · split
      · exact ⟨(by first | trivial | rfl), (by first | trivial | rfl), (by first | trivial | rfl), ⟨_, rfl, rfl⟩, (by first | trivial | rfl), (by first | trivial | rfl)⟩
      · exact ⟨(by first | trivial | rfl), (by first | trivial | rfl), (by first | trivial | rfl), ⟨⟨none, none⟩, by simp, rfl⟩, (by first | trivial | rfl), (by first | trivial | rfl)⟩

theorem fdInv_closeObj {w : FdWorld} (h : FdInv w) (i : Nat) (o : FileObj) (ho : w.objs i = some o)
    (w' : FdWorld) (h1 : w'.fds = (w.closeObj i o).1.fds) (h2 : w'.serial = (w.closeObj i o).1.serial)
    (h3 : w'.opened = (w.closeObj i o).1.opened) (h4 : w'.closed = (w.closeObj i o).1.closed)
    (h5 : ∀ k g, FdOwner w' k g → FdOwner (w.closeObj i o).1 k g) : FdInv w' := by
  obtain ⟨c1, c2, -, ⟨o', c3, c4⟩, c5⟩ := closeObj_spec w i o ho
  have hown : ∀ k g, FdOwner w' k g → FdOwner w k g ∧ k ≠ i := by
    intro k g hk
    rcases (owner_update c3 k g).1 (h5 k g hk) with ⟨a, b⟩ | ⟨-, o2, e, hg⟩
    · exact ⟨b, a⟩
    · cases e
      rw [c4] at hg; cases hg
  cases hf : o.fd with
  | none =>
    rw [hf] at c5
    exact fdInv_forget h (fun k g hk => (hown k g hk).1) (by rw [h1, c5.1]) (by rw [h2, c1])
      (by rw [h3, c2]) (by rw [h4, c5.2])
  | some f =>
    rw [hf] at c5
    exact fdInv_close h i f ⟨o, ho, hf⟩ hown (by rw [h1, c5.1]) (by rw [h2, c1]) (by rw [h3, c2])
      (by rw [h4, c5.2])

theorem fdInv_step {w w' : FdWorld} {op : FdOp} {b : Bool} (h : FdInv w) (hp : NoStd w op)
    (hs : w.step op = some (w', b)) : FdInv w' := by
  cases op with
  | new i =>
    simp only [FdWorld.step, Option.ite_none_right_eq_some, Option.some.injEq, Prod.mk.injEq] at hs
    obtain ⟨-, rfl, -⟩ := hs
    refine fdInv_forget h ?_ rfl rfl rfl rfl
    intro k g hk
    rcases (owner_update rfl k g).1 hk with ⟨-, b⟩ | ⟨-, o, e, hg⟩
    · exact b
    · cases e; cases hg
  | copy i j =>
    simp only [FdWorld.step, Option.ite_none_right_eq_some, Option.some.injEq, Prod.mk.injEq] at hs
    obtain ⟨-, rfl, -⟩ := hs
    refine fdInv_forget h ?_ rfl rfl rfl rfl
    intro k g hk
    rcases (owner_update rfl k g).1 hk with ⟨-, b⟩ | ⟨-, o, e, hg⟩
    · exact b
    · cases e; cases hg
  | assign i j =>
    simp only [FdWorld.step, Option.ite_none_right_eq_some, Option.some.injEq, Prod.mk.injEq] at hs
    obtain ⟨-, rfl, -⟩ := hs
    refine fdInv_forget h ?_ rfl rfl rfl rfl
    intro k g hk
    rcases (owner_update rfl k g).1 hk with ⟨-, b⟩ | ⟨-, o, e, hg⟩
    · exact b
    · cases e; cases hg
  | openFile i fd =>
    cases fd with
    | none =>
      simp only [FdWorld.step, Option.ite_none_right_eq_some, Option.some.injEq, Prod.mk.injEq] at hs
      obtain ⟨-, rfl, -⟩ := hs
      exact h
    | some f =>
      simp only [FdWorld.step] at hs
      split at hs
      · cases hs
      · simp only [Option.ite_none_right_eq_some, Option.some.injEq, Prod.mk.injEq] at hs
        obtain ⟨hf, rfl, -⟩ := hs
        refine fdInv_open h i f (by simpa using hf) ?_ rfl rfl rfl rfl
        intro k g hk
        rcases (owner_update rfl k g).1 hk with ⟨-, b⟩ | ⟨rfl, o, e, hg⟩
        · exact .inl b
        · cases e
          simp only [Option.some.injEq] at hg
          exact .inr ⟨rfl, hg.symm⟩
  | openStd i b => exact absurd hp id
  | openPipe i f p st =>
    simp only [FdWorld.step] at hs
    split at hs
    · cases hs
    · simp only [Option.ite_none_right_eq_some, Option.some.injEq, Prod.mk.injEq] at hs
      obtain ⟨hf, rfl, -⟩ := hs
      refine fdInv_open h i f (by simpa using hf.1) ?_ rfl rfl rfl rfl
      intro k g hk
      rcases (owner_update rfl k g).1 hk with ⟨-, b⟩ | ⟨rfl, o, e, hg⟩
      · exact .inl b
      · cases e
        simp only [Option.some.injEq] at hg
        exact .inr ⟨rfl, hg.symm⟩
  | forkFails i f g =>
    simp only [FdWorld.step] at hs
    split at hs
    · cases hs
    · simp only [Option.ite_none_right_eq_some, Option.some.injEq, Prod.mk.injEq] at hs
      obtain ⟨⟨hf, hg, hne⟩, rfl, -⟩ := hs
      have h1 : FdInv { w with fds := Function.update w.fds f (some w.serial), serial := w.serial + 1, opened := w.opened ++ [(w.serial, i)] } :=
        fdInv_open h i f (by simpa using hf) (fun k g hk => .inl hk) rfl rfl rfl rfl
      refine fdInv_open h1 i g ?_ (fun k g hk => .inl hk) rfl rfl ?_ rfl
      · show Function.update w.fds f _ g = none
        rw [Function.update_of_ne (Ne.symm hne)]
        simpa using hg
      · simp
  | close i =>
    simp only [FdWorld.step] at hs
    split at hs
    · cases hs
    · rename_i o ho
      simp only [Option.some.injEq] at hs
      have : w' = (w.closeObj i o).1 := by rw [hs]
      exact fdInv_closeObj h i o ho w' (by rw [this]) (by rw [this]) (by rw [this]) (by rw [this])
        (by rw [this]; exact fun _ _ h => h)
  | destroy i =>
    simp only [FdWorld.step] at hs
    split at hs
    · cases hs
    · rename_i o ho
      simp only [Option.some.injEq, Prod.mk.injEq] at hs
      obtain ⟨rfl, -⟩ := hs
      refine fdInv_closeObj h i o ho _ rfl rfl rfl rfl ?_
      intro k g hk
      rcases (owner_update rfl k g).1 hk with ⟨-, b⟩ | ⟨-, o, e, hg⟩
      · exact b
      · cases e

theorem fdInv_reach {w : FdWorld} (h : FdReach NoStd w) : FdInv w := by
  induction h with
  | init => exact fdInv_init
  | step _ hp hs ih => exact fdInv_step ih hp hs

/-- C51 (partial: no object reads standard input or writes standard output): whatever is done with any
number of objects, copies included, every descriptor that is closed by an object has been opened by
this very object and is open, and is closed only once.  Different objects never have the same
descriptor. -/
theorem fd_closed_once_partial (w : FdWorld) (h : FdReach NoStd w) :
    (∀ e ∈ w.closed, ∃ s, e.2 = some s ∧ (s, e.1) ∈ w.opened) ∧ (w.closed.map Prod.snd).Nodup ∧
    (∀ i j f, FdOwner w i f → FdOwner w j f → i = j) ∧
    (w.opened.map Prod.fst).Nodup :=
  ⟨(fdInv_reach h).closed, (fdInv_reach h).nodup, (fdInv_reach h).distinct, (fdInv_reach h).uniq⟩

/-- Everything opened has been closed or still belongs to the object. -/
def FdKept (w : FdWorld) : Prop :=
  ∀ s i, (s, i) ∈ w.opened → (i, some s) ∈ w.closed ∨ ∃ f, FdOwner w i f ∧ w.fds f = some s

theorem fdKept_same {w w' : FdWorld} (h : FdKept w) (ho : ∀ i f, FdOwner w i f → FdOwner w' i f)
    (h1 : w'.fds = w.fds) (h3 : w'.opened = w.opened) (h4 : w'.closed = w.closed) : FdKept w' := by
  intro s i hm
  rw [h3] at hm
  rw [h1, h4]
  rcases h s i hm with h | ⟨f, a, b⟩
  · exact .inl h
  · exact .inr ⟨f, ho i f a, b⟩

theorem fdKept_open {w w' : FdWorld} (h : FdKept w) (i f : Nat) (hf : w.fds f = none)
    (ho : ∀ k g, FdOwner w k g → FdOwner w' k g) (hi : FdOwner w' i f)
    (h1 : w'.fds = Function.update w.fds f (some w.serial))
    (h3 : w'.opened = w.opened ++ [(w.serial, i)]) (h4 : w'.closed = w.closed) : FdKept w' := by
  intro s k hm
  rw [h3] at hm
  rw [h4]
  rcases List.mem_append.1 hm with hm | hm
  · rcases h s k hm with h | ⟨g, a, b⟩
    · exact .inl h
    · refine .inr ⟨g, ho k g a, ?_⟩
      rw [h1, Function.update_of_ne, b]
      rintro rfl
      rw [hf] at b; cases b
  · simp only [List.mem_singleton, Prod.mk.injEq] at hm
    obtain ⟨rfl, rfl⟩ := hm
    exact .inr ⟨f, hi, by rw [h1]; simp⟩

theorem fdKept_closeObj {w : FdWorld} (hinv : FdInv w) (h : FdKept w) (i : Nat) (o : FileObj)
    (ho : w.objs i = some o) (w' : FdWorld) (h1 : w'.fds = (w.closeObj i o).1.fds)
    (h3 : w'.opened = (w.closeObj i o).1.opened) (h4 : w'.closed = (w.closeObj i o).1.closed)
    (h5 : ∀ k g, k ≠ i → FdOwner (w.closeObj i o).1 k g → FdOwner w' k g) : FdKept w' := by
  obtain ⟨-, c2, -, ⟨o', c3, c4⟩, c5⟩ := closeObj_spec w i o ho
  have hown : ∀ k g, k ≠ i → FdOwner w k g → FdOwner w' k g :=
    fun k g hne hk => h5 k g hne ((owner_update c3 k g).2 (.inl ⟨hne, hk⟩))
  intro s k hm
  rw [h3, c2] at hm
  cases hf : o.fd with
  | none =>
    rw [hf] at c5
    rw [h4, c5.2, h1, c5.1]
    rcases h s k hm with h | ⟨g, a, b⟩
    · exact .inl h
    · refine .inr ⟨g, hown k g ?_ a, b⟩
      rintro rfl
      obtain ⟨o2, e, hg⟩ := a
      rw [ho] at e
      cases e
      rw [hf] at hg; cases hg
  | some f =>
    rw [hf] at c5
    rw [h4, c5.2, h1, c5.1]
    rcases h s k hm with h | ⟨g, a, b⟩
    · exact .inl (by simp [h])
    · by_cases e : k = i
      · subst e
        obtain ⟨o2, e, hg⟩ := a
        rw [ho] at e
        cases e
        rw [hf] at hg
        cases hg
        exact .inl (by simp [b])
      · refine .inr ⟨g, hown k g e a, ?_⟩
        rw [Function.update_of_ne, b]
        rintro rfl
        exact e (hinv.distinct k i g a ⟨o, ho, hf⟩)

theorem careful_noStd {w : FdWorld} {op : FdOp} (h : Careful w op) : NoStd w op := by
  cases op <;> first | trivial | exact h

theorem reach_mono {P Q : FdWorld → FdOp → Prop} (hpq : ∀ w op, P w op → Q w op) {w : FdWorld}
    (h : FdReach P w) : FdReach Q w := by
  induction h with
  | init => exact .init
  | step _ hp hs ih => exact .step ih (hpq _ _ hp) hs

theorem fdKept_step {w w' : FdWorld} {op : FdOp} {b : Bool} (hinv : FdInv w) (h : FdKept w)
    (hp : Careful w op) (hs : w.step op = some (w', b)) : FdKept w' := by
  -- an object without a descriptor is replaced
  have replace : ∀ (i : Nat) (o' : Option FileObj), (∀ o, w.objs i = some o → o.fd = none) →
      ∀ (w' : FdWorld), w'.objs = Function.update w.objs i o' → ∀ k g, FdOwner w k g → FdOwner w' k g := by
    intro i o' hno w' hw' k g hk
    refine (owner_update hw' k g).2 (.inl ⟨?_, hk⟩)
    rintro rfl
    obtain ⟨o, ho, hf⟩ := hk
    rw [hno o ho] at hf; cases hf
  cases op with
  | new i =>
    simp only [FdWorld.step, Option.ite_none_right_eq_some, Option.some.injEq, Prod.mk.injEq] at hs
    obtain ⟨hn, rfl, -⟩ := hs
    exact fdKept_same h (replace i _ (fun o ho => by rw [ho] at hn; cases hn) _ rfl) rfl rfl rfl
  | copy i j =>
    simp only [FdWorld.step, Option.ite_none_right_eq_some, Option.some.injEq, Prod.mk.injEq] at hs
    obtain ⟨hn, rfl, -⟩ := hs
    exact fdKept_same h (replace i _ (fun o ho => by rw [ho] at hn; cases hn.1) _ rfl) rfl rfl rfl
  | assign i j =>
    simp only [FdWorld.step, Option.ite_none_right_eq_some, Option.some.injEq, Prod.mk.injEq] at hs
    obtain ⟨hn, rfl, -⟩ := hs
    exact fdKept_same h (replace i _ hp _ rfl) rfl rfl rfl
  | openFile i fd =>
    cases fd with
    | none =>
      simp only [FdWorld.step, Option.ite_none_right_eq_some, Option.some.injEq, Prod.mk.injEq] at hs
      obtain ⟨-, rfl, -⟩ := hs
      exact h
    | some f =>
      simp only [FdWorld.step] at hs
      split at hs
      · cases hs
      · simp only [Option.ite_none_right_eq_some, Option.some.injEq, Prod.mk.injEq] at hs
        obtain ⟨hf, rfl, -⟩ := hs
        exact fdKept_open h i f (by simpa using hf) (replace i _ hp _ rfl)
          ((owner_update rfl i f).2 (.inr ⟨rfl, _, rfl, rfl⟩)) rfl rfl rfl
  | openStd i b => exact absurd hp id
  | openPipe i f p st =>
    simp only [FdWorld.step] at hs
    split at hs
    · cases hs
    · simp only [Option.ite_none_right_eq_some, Option.some.injEq, Prod.mk.injEq] at hs
      obtain ⟨hf, rfl, -⟩ := hs
      exact fdKept_open h i f (by simpa using hf.1) (replace i _ hp _ rfl)
        ((owner_update rfl i f).2 (.inr ⟨rfl, _, rfl, rfl⟩)) rfl rfl rfl
  | forkFails i f g => exact absurd hp id
  | close i =>
    simp only [FdWorld.step] at hs
    split at hs
    · cases hs
    · rename_i o ho
      simp only [Option.some.injEq] at hs
      have : w' = (w.closeObj i o).1 := by rw [hs]
      exact fdKept_closeObj hinv h i o ho w' (by rw [this]) (by rw [this]) (by rw [this])
        (by rw [this]; exact fun _ _ _ h => h)
  | destroy i =>
    simp only [FdWorld.step] at hs
    split at hs
    · cases hs
    · rename_i o ho
      simp only [Option.some.injEq, Prod.mk.injEq] at hs
      obtain ⟨rfl, -⟩ := hs
      refine fdKept_closeObj hinv h i o ho _ rfl rfl rfl ?_
      intro k g hne hk
      exact (owner_update rfl k g).2 (.inl ⟨hne, hk⟩)

/-- C51, no leaks (partial: objects are not opened or assigned to while they have a file open, and
`fork` does not fail): when all objects are gone, everything they opened has been closed. -/
theorem fd_no_leak_partial (w : FdWorld) (h : FdReach Careful w) (hgone : ∀ i, w.objs i = none) :
    ∀ s i, (s, i) ∈ w.opened → (i, some s) ∈ w.closed := by
  have hk : FdKept w := by
    clear hgone
    induction h with
    | init => intro s i hm; simp [FdWorld.init] at hm
    | step hr hp hs ih => exact fdKept_step (fdInv_reach (reach_mono (fun _ _ => careful_noStd) hr)) ih hp hs
  intro s i hm
  rcases hk s i hm with h | ⟨f, ⟨o, ho, -⟩, -⟩
  · exact h
  · rw [hgone i] at ho; cases ho

/-! ### Child processes -/

/-- Object `i` has the child process `p`. -/
def KidOwner (w : FdWorld) (i p : Nat) : Prop := ∃ o, w.objs i = some o ∧ o.child = some p

/-- The invariant for child processes. -/
structure KidInv (w : FdWorld) : Prop where
  kid : ∀ i p, KidOwner w i p → ∃ st, (p, i, st) ∈ w.started ∧ (w.kids p = some st ∨ w.kids p = none ∧ st ≠ 0)
  distinct : ∀ i j p, KidOwner w i p → KidOwner w j p → i = j
  uniq : (w.started.map Prod.fst).Nodup

theorem kidOwner_update {w w' : FdWorld} {i : Nat} {o' : Option FileObj}
    (h : w'.objs = Function.update w.objs i o') (k g : Nat) :
    KidOwner w' k g ↔ (k ≠ i ∧ KidOwner w k g) ∨ (k = i ∧ ∃ o, o' = some o ∧ o.child = some g) := by
  unfold KidOwner
  rw [h]
  by_cases e : k = i
  · subst e; simp
  · simp [e, Function.update_of_ne e]

theorem kidInv_forget {w w' : FdWorld} (h : KidInv w) (ho : ∀ i p, KidOwner w' i p → KidOwner w i p)
    (h1 : w'.kids = w.kids) (h2 : w'.started = w.started) : KidInv w' := by
  constructor
  · rw [h1, h2]; exact fun i p hk => h.kid i p (ho i p hk)
  · exact fun i j p hi hj => h.distinct i j p (ho i p hi) (ho j p hj)
  · rw [h2]; exact h.uniq

/-- `close` and child processes. -/
theorem closeObj_kids (w : FdWorld) (i : Nat) (o : FileObj) (ho : w.objs i = some o) :
    match o.child with
    | none => (w.closeObj i o).1.kids = w.kids ∧ (w.closeObj i o).2 = false ∧
        ∀ k p, KidOwner (w.closeObj i o).1 k p ↔ KidOwner w k p
    | some p =>
      match w.kids p with
      | none => (w.closeObj i o).1.kids = w.kids ∧ (w.closeObj i o).2 = true ∧
          ∀ k p, KidOwner (w.closeObj i o).1 k p ↔ KidOwner w k p
      | some st => (w.closeObj i o).1.kids = Function.update w.kids p none ∧
          (w.closeObj i o).2 = decide (st ≠ 0) ∧
          ∀ k q, KidOwner (w.closeObj i o).1 k q → KidOwner w k q ∧ (k = i → st ≠ 0) := by
  have hsame : ∀ o' : FileObj, o'.child = o.child → ∀ w' : FdWorld,
      w'.objs = Function.update w.objs i (some o') → ∀ k p, KidOwner w' k p ↔ KidOwner w k p := by
    intro o' hc w' hw' k p
    rw [kidOwner_update hw']
    constructor
    · rintro (⟨-, h⟩ | ⟨rfl, o2, e, h⟩)
      · exact h
      · cases e
        exact ⟨o, ho, by rw [← hc]; exact h⟩
    · intro h
      by_cases e : k = i
      · subst e
        obtain ⟨o2, e, h⟩ := h
        rw [ho] at e
        cases e
        exact .inr ⟨rfl, o', rfl, by rw [hc]; exact h⟩
      · exact .inl ⟨e, h⟩
  have hid : w.objs = Function.update w.objs i (some o) := by
    rw [← ho]; exact (Function.update_eq_self i w.objs).symm
  obtain ⟨fd, child⟩ := o
  cases child with
  | none =>
    cases fd with
    | none => exact ⟨rfl, rfl, fun _ _ => Iff.rfl⟩
    | some f => exact ⟨rfl, rfl, hsame ⟨none, none⟩ rfl _ rfl⟩
  | some p =>
    simp only
    cases hk : w.kids p with
    | none =>
      cases fd with
      | none =>
        simp only [FdWorld.closeObj, hk]
        exact ⟨trivial, trivial, fun _ _ => trivial⟩
      | some f =>
        simp only [FdWorld.closeObj, hk]
        exact ⟨trivial, trivial, hsame ⟨none, some p⟩ rfl _ rfl⟩
    | some st =>
      simp only
      by_cases hst : st ≠ 0
      · cases fd with
        | none =>
          simp only [FdWorld.closeObj, hk, if_pos hst]
          exact ⟨trivial, by simp [hst], fun k q h => ⟨h, fun _ => hst⟩⟩
        | some f =>
          simp only [FdWorld.closeObj, hk, if_pos hst]
          exact ⟨trivial, by simp [hst], fun k q h => ⟨(hsame ⟨none, some p⟩ rfl _ rfl k q).1 h, fun _ => hst⟩⟩
      · cases fd with
        | none =>
          simp only [FdWorld.closeObj, hk, if_neg hst]
          refine ⟨trivial, by simpa using hst, ?_⟩
          intro k q h
          rcases (kidOwner_update (w := w) (i := i) (o' := some ⟨none, none⟩) rfl k q).1 h with
            ⟨a, b⟩ | ⟨-, o, e, h⟩
          · exact ⟨b, fun e => absurd e a⟩
          · cases e; cases h
        | some f =>
          simp only [FdWorld.closeObj, hk, if_neg hst]
          refine ⟨trivial, by simpa using hst, ?_⟩
          intro k q h
          rcases (kidOwner_update (w := w) (i := i) (o' := some ⟨none, none⟩) (by simp) k q).1 h with
            ⟨a, b⟩ | ⟨-, o, e, h⟩
          · exact ⟨b, fun e => absurd e a⟩
          · cases e; cases h

theorem kidInv_closeObj {w : FdWorld} (h : KidInv w) (i : Nat) (o : FileObj) (ho : w.objs i = some o)
    (w' : FdWorld) (h1 : w'.kids = (w.closeObj i o).1.kids) (h2 : w'.started = (w.closeObj i o).1.started)
    (h3 : ∀ k p, KidOwner w' k p → KidOwner (w.closeObj i o).1 k p) : KidInv w' := by
  have hc := closeObj_kids w i o ho
  have hst := (closeObj_spec w i o ho).2.2.1
  cases hchild : o.child with
  | none =>
    rw [hchild] at hc
    exact kidInv_forget h (fun k p hk => (hc.2.2 k p).1 (h3 k p hk)) (by rw [h1, hc.1]) (by rw [h2, hst])
  | some p =>
    rw [hchild] at hc
    simp only at hc
    cases hk : w.kids p with
    | none =>
      rw [hk] at hc
      exact kidInv_forget h (fun k p hk => (hc.2.2 k p).1 (h3 k p hk)) (by rw [h1, hc.1]) (by rw [h2, hst])
    | some st =>
      rw [hk] at hc
      obtain ⟨c1, -, c3⟩ := hc
      constructor
      · intro k q hq
        obtain ⟨a, b⟩ := c3 k q (h3 k q hq)
        rw [h1, h2, hst, c1]
        obtain ⟨st', hm, hst'⟩ := h.kid k q a
        by_cases e : q = p
        · subst e
          have hki := h.distinct k i q a ⟨o, ho, hchild⟩
          refine ⟨st', hm, .inr ⟨by simp, ?_⟩⟩
          rw [hk] at hst'
          simp only [Option.some.injEq, reduceCtorEq, false_and, or_false] at hst'
          rw [← hst']
          exact b hki
        · rw [Function.update_of_ne e]
          exact ⟨st', hm, hst'⟩
      · intro k l q hk' hl
        exact h.distinct k l q (c3 k q (h3 k q hk')).1 (c3 l q (h3 l q hl)).1
      · rw [h2, hst]; exact h.uniq

theorem kidInv_step {w w' : FdWorld} {op : FdOp} {b : Bool} (h : KidInv w) (hp : FreshPids w op)
    (hs : w.step op = some (w', b)) : KidInv w' := by
  have lose : ∀ (i : Nat) (fd : Option Nat) (w' : FdWorld),
      w'.objs = Function.update w.objs i (some ⟨fd, none⟩) → ∀ k p, KidOwner w' k p → KidOwner w k p := by
    intro i fd w' hw' k p hk
    rcases (kidOwner_update hw' k p).1 hk with ⟨-, b⟩ | ⟨-, o, e, hg⟩
    · exact b
    · cases e; cases hg
  have keep : ∀ (i : Nat) (o : FileObj) (fd : Option Nat) (w' : FdWorld), w.objs i = some o →
      w'.objs = Function.update w.objs i (some { o with fd := fd }) → ∀ k p, KidOwner w' k p → KidOwner w k p := by
    intro i o fd w' ho hw' k p hk
    rcases (kidOwner_update hw' k p).1 hk with ⟨-, b⟩ | ⟨rfl, o2, e, hg⟩
    · exact b
    · cases e; exact ⟨o, ho, hg⟩
  cases op with
  | new i =>
    simp only [FdWorld.step, Option.ite_none_right_eq_some, Option.some.injEq, Prod.mk.injEq] at hs
    obtain ⟨hn, rfl, -⟩ := hs
    exact kidInv_forget h (lose i _ _ rfl) rfl rfl
  | copy i j =>
    simp only [FdWorld.step, Option.ite_none_right_eq_some, Option.some.injEq, Prod.mk.injEq] at hs
    obtain ⟨hn, rfl, -⟩ := hs
    exact kidInv_forget h (lose i _ _ rfl) rfl rfl
  | assign i j =>
    simp only [FdWorld.step, Option.ite_none_right_eq_some, Option.some.injEq, Prod.mk.injEq] at hs
    obtain ⟨hn, rfl, -⟩ := hs
    exact kidInv_forget h (lose i _ _ rfl) rfl rfl
  | openFile i fd =>
    cases fd with
    | none =>
      simp only [FdWorld.step, Option.ite_none_right_eq_some, Option.some.injEq, Prod.mk.injEq] at hs
      obtain ⟨-, rfl, -⟩ := hs
      exact h
    | some f =>
      simp only [FdWorld.step] at hs
      split at hs
      · cases hs
      · rename_i o ho
        simp only [Option.ite_none_right_eq_some, Option.some.injEq, Prod.mk.injEq] at hs
        obtain ⟨hf, rfl, -⟩ := hs
        exact kidInv_forget h (keep i o _ _ ho rfl) rfl rfl
  | openStd i b =>
    simp only [FdWorld.step] at hs
    split at hs
    · cases hs
    · rename_i o ho
      simp only [Option.some.injEq, Prod.mk.injEq] at hs
      obtain ⟨rfl, -⟩ := hs
      exact kidInv_forget h (keep i o _ _ ho rfl) rfl rfl
  | openPipe i f p st =>
    simp only [FdWorld.step] at hs
    split at hs
    · cases hs
    · simp only [Option.ite_none_right_eq_some, Option.some.injEq, Prod.mk.injEq] at hs
      obtain ⟨⟨-, hnone⟩, rfl, -⟩ := hs
      have hown : ∀ k q, KidOwner { w with
          objs := Function.update w.objs i (some ⟨some f, some p⟩)
          fds := Function.update w.fds f (some w.serial)
          kids := Function.update w.kids p (some st)
          serial := w.serial + 1
          opened := w.opened ++ [(w.serial, i)]
          started := w.started ++ [(p, i, st)] } k q → (k ≠ i ∧ KidOwner w k q ∧ q ≠ p) ∨ (k = i ∧ q = p) := by
        intro k q hk
        rcases (kidOwner_update (w := w) (i := i) (o' := some ⟨some f, some p⟩) rfl k q).1 hk with
          ⟨a, b⟩ | ⟨a, o, e, hg⟩
        · refine .inl ⟨a, b, ?_⟩
          rintro rfl
          obtain ⟨st', hm, -⟩ := h.kid k q b
          exact hp (List.mem_map.2 ⟨_, hm, rfl⟩)
        · cases e
          simp only [Option.some.injEq] at hg
          exact .inr ⟨a, hg.symm⟩
      constructor
      · intro k q hk
        rcases hown k q hk with ⟨a, b, c⟩ | ⟨rfl, rfl⟩
        · obtain ⟨st', hm, h'⟩ := h.kid k q b
          simp only
          rw [Function.update_of_ne c]
          exact ⟨st', by simp [hm], h'⟩
        · exact ⟨st, by simp, .inl (by simp)⟩
      · intro k l q hk hl
        rcases hown k q hk with ⟨a, b, c⟩ | ⟨e1, e2⟩ <;> rcases hown l q hl with ⟨a', b', c'⟩ | ⟨e3, e4⟩
        · exact h.distinct k l q b b'
        · exact absurd e4 c
        · exact absurd e2 c'
        · rw [e1, e3]
      · simp only [List.map_append, List.map_cons, List.map_nil]
        rw [List.nodup_append]
        refine ⟨h.uniq, by simp, ?_⟩
        rintro a ha b hb rfl
        simp only [List.mem_singleton] at hb
        exact hp (hb ▸ ha)
  | forkFails i f g =>
    simp only [FdWorld.step] at hs
    split at hs
    · cases hs
    · simp only [Option.ite_none_right_eq_some, Option.some.injEq, Prod.mk.injEq] at hs
      obtain ⟨-, rfl, -⟩ := hs
      exact kidInv_forget h (fun _ _ h => h) rfl rfl
  | close i =>
    simp only [FdWorld.step] at hs
    split at hs
    · cases hs
    · rename_i o ho
      simp only [Option.some.injEq] at hs
      have : w' = (w.closeObj i o).1 := by rw [hs]
      exact kidInv_closeObj h i o ho w' (by rw [this]) (by rw [this]) (by rw [this]; exact fun _ _ h => h)
  | destroy i =>
    simp only [FdWorld.step] at hs
    split at hs
    · cases hs
    · rename_i o ho
      simp only [Option.some.injEq, Prod.mk.injEq] at hs
      obtain ⟨rfl, -⟩ := hs
      refine kidInv_closeObj h i o ho _ rfl rfl ?_
      intro k g hk
      rcases (kidOwner_update rfl k g).1 hk with ⟨-, b⟩ | ⟨-, o, e, hg⟩
      · exact b
      · cases e

/-- C51, child processes (partial: process numbers are not used again): closing an object throws
exactly if it has a child process and this, started by the object itself, has failed; every time. -/
theorem close_reports_child_partial (w : FdWorld) (h : FdReach FreshPids w) (i : Nat) (o : FileObj)
    (ho : w.objs i = some o) :
    ∃ w' thrown, w.step (.close i) = some (w', thrown) ∧
      (thrown = true ↔ ∃ p st, o.child = some p ∧ (p, i, st) ∈ w.started ∧ st ≠ 0) ∧
      (∀ o', w'.objs i = some o' → o'.fd = none) := by
  have hk : KidInv w := by
    clear ho
    induction h with
    | init => constructor <;> simp [FdWorld.init, KidOwner]
    | step _ hp hs ih => exact kidInv_step ih hp hs
  refine ⟨(w.closeObj i o).1, (w.closeObj i o).2, by simp [FdWorld.step, ho], ?_, ?_⟩
  · have hc := closeObj_kids w i o ho
    cases hchild : o.child with
    | none =>
      rw [hchild] at hc
      simp [hc.2.1]
    | some p =>
      rw [hchild] at hc
      simp only at hc
      obtain ⟨st, hm, hst⟩ := hk.kid i p ⟨o, ho, hchild⟩
      have huniq : ∀ st', (p, i, st') ∈ w.started → st' = st := by
        intro st' hm'
        have := List.inj_on_of_nodup_map hk.uniq hm' hm rfl
        simpa using this
      cases hkid : w.kids p with
      | none =>
        rw [hkid] at hc hst
        rw [hc.2.1]
        simp only [reduceCtorEq, false_or, true_and] at hst
        exact ⟨fun _ => ⟨p, st, rfl, hm, hst⟩, fun _ => rfl⟩
      | some st2 =>
        rw [hkid] at hc hst
        simp only [Option.some.injEq, reduceCtorEq, false_and, or_false] at hst
        subst hst
        rw [hc.2.1]
        simp only [decide_eq_true_eq]
        constructor
        · intro hne; exact ⟨p, st2, rfl, hm, hne⟩
        · rintro ⟨p', st', e, hm', hne⟩
          cases e
          rw [← huniq st' hm']
          exact hne
  · obtain ⟨-, -, -, ⟨o', c3, c4⟩, -⟩ := closeObj_spec w i o ho
    intro o2 h2
    rw [c3] at h2
    simp only [Function.update_self, Option.some.injEq] at h2
    rw [← h2]; exact c4

/-! ### What goes wrong otherwise -/

/-- A sequence of operations: the world afterwards and which of them threw. -/
def FdWorld.run (w : FdWorld) : List FdOp → Option (FdWorld × List Bool)
  | [] => some (w, [])
  | op :: ops =>
    match w.step op with
    | none => none
    | some (w', b) => (w'.run ops).map fun r => (r.1, b :: r.2)

/-- The hypotheses can be met: two objects, one reads from a child process that fails, and a copy of an
object with an open file. -/
example : ∃ w, FdReach (fun w op => Careful w op ∧ FreshPids w op) w ∧
    w.opened = [(3, 0), (4, 1)] ∧ w.closed = [(0, some 3), (1, some 4)] ∧ w.started = [(100, 1, 1)] := by
  refine ⟨_, .step (op := .destroy 1) (.step (op := .destroy 0) (.step (op := .destroy 2)
    (.step (op := .openPipe 1 4 100 1) (.step (op := .copy 2 0) (.step (op := .openFile 0 (some 3))
      (.step (op := .new 1) (.step (op := .new 0) .init ?_ rfl) ?_ rfl) ?_ rfl) ?_ rfl) ?_ rfl) ?_ rfl) ?_ rfl) ?_ rfl,
    rfl, rfl, rfl⟩
  all_goals (constructor <;> simp [Careful, FreshPids, FdWorld.init])

/-- C51 fails for standard input: after the first object has closed descriptor 0, another file may get
it; when standard input is then opened and closed again, the descriptor of the other object is
closed. -/
theorem fd_std_closes_other :
    (FdWorld.init.run [.new 0, .openStd 0 false, .close 0, .new 1, .openFile 1 (some 0),
      .openStd 0 false, .close 0, .close 1]).map (fun r => (r.1.opened, r.1.closed)) =
    some ([(3, 1)], [(0, some 0), (0, some 3), (1, none)]) := by decide +kernel

/-- Assigning to an object with an open file, opening it again, and a failing `fork` lose descriptors:
they are never closed. -/
theorem fd_leaks :
    (FdWorld.init.run [.new 0, .openFile 0 (some 3), .new 1, .assign 0 1, .destroy 0, .destroy 1]).map
      (fun r => (r.1.opened, r.1.closed)) = some ([(3, 0)], []) ∧
    (FdWorld.init.run [.new 0, .openFile 0 (some 3), .openFile 0 (some 4), .destroy 0]).map
      (fun r => (r.1.opened, r.1.closed)) = some ([(3, 0), (4, 0)], [(0, some 4)]) ∧
    (FdWorld.init.run [.new 0, .forkFails 0 3 4, .destroy 0]).map
      (fun r => (r.1.opened, r.1.closed)) = some ([(3, 0), (4, 0)], []) := by
  refine ⟨?_, ?_, ?_⟩ <;> decide +kernel

/-- After a failed `close` the object waits for the same process number again; if it has been used
again, the child of another object is waited for, and closing that object reports an error although
its child has not failed. -/
theorem child_waited_twice :
    (FdWorld.init.run [.new 0, .openPipe 0 3 100 1, .close 0, .new 1, .openPipe 1 3 100 0, .destroy 0,
      .close 1]).map Prod.snd = some [false, false, true, false, false, false, true] := by decide +kernel

end Osmium
