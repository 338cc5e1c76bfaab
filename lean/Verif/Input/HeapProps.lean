import Verif.Input.Heap
/-
C23, for any reader that follows a discipline: an object is modified only between its preparation and
the callback.
-/
namespace Osmium

/-- The type of object an operation modifies. -/
def ROp.target : ROp → Option ObjType
  | .modNode _ => some .node
  | .modWay _ => some .way
  | .modRel _ => some .relation
  | _ => none

/-- The object being built (between preparation and callback) after an operation; `none`: the
operation violates the discipline. -/
def ROp.track (active : Option ObjType) (op : ROp) : Option (Option ObjType) :=
  match op with
  | .prepare t => if t = .node ∨ t = .way ∨ t = .relation then some (some t) else none
  | .call t => if active = some t then some none else none
  | .emit _ => some active
  | .modNode _ => if active = some .node then some active else none
  | .modWay _ => if active = some .way then some active else none
  | .modRel _ => if active = some .relation then some active else none

/-- The discipline for a sequence of operations. -/
def track : Option ObjType → List ROp → Option (Option ObjType)
  | a, [] => some a
  | a, op :: ops => (op.track a).bind (fun a' => track a' ops)

theorem track_append (a : Option ObjType) (xs ys : List ROp) :
    track a (xs ++ ys) = (track a xs).bind (fun a' => track a' ys) := by
  induction xs generalizing a with
  | nil => rfl
  | cons x xs ih =>
    simp only [List.cons_append, track]
    cases x.track a with
    | none => rfl
    | some a' => exact ih a'

/-- What holds of the heap while a disciplined reader runs; `r` are the objects as plain values. -/
structure HeapInv (active : Option ObjType) (h : Heap) (r : Regs) : Prop where
  held_lt : ∀ a ∈ h.held, a < h.next
  reg_lt : ∀ t a, h.reg t = some a → a < h.next
  free : ∀ t, active = some t → ∃ a, h.reg t = some a ∧ a ∉ h.held
  node : ∀ a, h.node = some a → h.cells a = .node r.node
  way : ∀ a, h.way = some a → h.cells a = .way r.way
  rel : ∀ a, h.rel = some a → h.cells a = .relation r.rel

theorem heapInv_init : HeapInv none Heap.init Regs.init := by
  constructor <;> simp [Heap.init, Heap.reg]
  intro t a h; cases t <;> simp at h

theorem heap_write_cells (h : Heap) (a b : Nat) (o : OsmObj) :
    (h.write a o).cells b = if b = a then o else h.cells b := rfl

/-- Preparing: what was there stays, except the object prepared. -/
theorem prepare_spec (h : Heap) (r : Regs) (act : Option ObjType) (t : ObjType)
    (ht : t = .node ∨ t = .way ∨ t = .relation) (hi : HeapInv act h r) :
    HeapInv (some t) (h.prepare t) (r.step (.prepare t)).1 ∧
    (∀ a ∈ h.held, (h.prepare t).cells a = h.cells a) ∧ (h.prepare t).held = h.held := by
  obtain ⟨h1, h2, _, hn, hw, hr⟩ := hi
  have ndiff : ∀ a b, h.node = some a → h.way = some b → a ≠ b := by
    intro a b ha hb e; subst e; have := hn a ha; rw [hw a hb] at this; cases this
  have ndiff2 : ∀ a b, h.node = some a → h.rel = some b → a ≠ b := by
    intro a b ha hb e; subst e; have := hn a ha; rw [hr a hb] at this; cases this
  have ndiff3 : ∀ a b, h.way = some a → h.rel = some b → a ≠ b := by
    intro a b ha hb e; subst e; have := hw a ha; rw [hr a hb] at this; cases this
  have alloc : ∀ (hp : h.prepare t = ({ h with next := h.next + 1 }.write h.next (.fresh t)).setReg t h.next),
      HeapInv (some t) (h.prepare t) (r.step (.prepare t)).1 ∧
      (∀ a ∈ h.held, (h.prepare t).cells a = h.cells a) ∧ (h.prepare t).held = h.held := by
    intro hp
    rw [hp]
    have nn : ∀ a, h.node = some a → a ≠ h.next := fun a ha => Nat.ne_of_lt (h2 .node a ha)
    have nw : ∀ a, h.way = some a → a ≠ h.next := fun a ha => Nat.ne_of_lt (h2 .way a ha)
    have nr : ∀ a, h.rel = some a → a ≠ h.next := fun a ha => Nat.ne_of_lt (h2 .relation a ha)
    have nh : h.next ∉ h.held := fun hm => Nat.lt_irrefl _ (h1 _ hm)
    have lt1 : ∀ a ∈ h.held, a < h.next + 1 := fun a ha => Nat.lt_succ_of_lt (h1 a ha)
    have cell : ∀ a ∈ h.held, (if a = h.next then OsmObj.fresh t else h.cells a) = h.cells a := by
      intro a ha; rw [if_neg]; intro e; exact nh (e ▸ ha)
    rcases ht with rfl | rfl | rfl
    · refine ⟨⟨lt1, ?_, ?_, ?_, ?_, ?_⟩, cell, rfl⟩
      · intro t' a ha
        cases t' <;> simp [Heap.reg, Heap.setReg, Heap.write] at ha ⊢
        · omega
        · have := h2 .way a ha; omega
        · have := h2 .relation a ha; omega
      · rintro t' ⟨⟩; exact ⟨h.next, rfl, nh⟩
      · intro a ha; simp [Heap.setReg, Heap.write] at ha ⊢; subst ha; simp [OsmObj.fresh, Regs.step]
      · intro a ha; simp [Heap.setReg, Heap.write] at ha ⊢; simp [nw a ha, hw a ha, Regs.step]
      · intro a ha; simp [Heap.setReg, Heap.write] at ha ⊢; simp [nr a ha, hr a ha, Regs.step]
    · refine ⟨⟨lt1, ?_, ?_, ?_, ?_, ?_⟩, cell, rfl⟩
      · intro t' a ha
        cases t' <;> simp [Heap.reg, Heap.setReg, Heap.write] at ha ⊢
        · have := h2 .node a ha; omega
        · omega
        · have := h2 .relation a ha; omega
      · rintro t' ⟨⟩; exact ⟨h.next, rfl, nh⟩
      · intro a ha; simp [Heap.setReg, Heap.write] at ha ⊢; simp [nn a ha, hn a ha, Regs.step]
      · intro a ha; simp [Heap.setReg, Heap.write] at ha ⊢; subst ha; simp [OsmObj.fresh, Regs.step]
      · intro a ha; simp [Heap.setReg, Heap.write] at ha ⊢; simp [nr a ha, hr a ha, Regs.step]
    · refine ⟨⟨lt1, ?_, ?_, ?_, ?_, ?_⟩, cell, rfl⟩
      · intro t' a ha
        cases t' <;> simp [Heap.reg, Heap.setReg, Heap.write] at ha ⊢
        · have := h2 .node a ha; omega
        · have := h2 .way a ha; omega
        · omega
      · rintro t' ⟨⟩; exact ⟨h.next, rfl, nh⟩
      · intro a ha; simp [Heap.setReg, Heap.write] at ha ⊢; simp [nn a ha, hn a ha, Regs.step]
      · intro a ha; simp [Heap.setReg, Heap.write] at ha ⊢; simp [nw a ha, hw a ha, Regs.step]
      · intro a ha; simp [Heap.setReg, Heap.write] at ha ⊢; subst ha; simp [OsmObj.fresh, Regs.step]
  cases hreg : h.reg t with
  | none => exact alloc (by simp [Heap.prepare, hreg])
  | some a =>
    by_cases hh : h.held.contains a = true
    · exact alloc (by simp only [Heap.prepare, hreg, hh, if_true])
    · have hp : h.prepare t = h.write a (.fresh t) := by simp only [Heap.prepare, hreg, hh]; rfl
      rw [hp]
      have hna : a ∉ h.held := by simpa using hh
      have cell : ∀ b ∈ h.held, (h.write a (.fresh t)).cells b = h.cells b := by
        intro b hb; rw [heap_write_cells, if_neg]; intro e; exact hna (e ▸ hb)
      refine ⟨⟨h1, h2, ?_, ?_, ?_, ?_⟩, cell, rfl⟩
      · rintro t' ⟨⟩; exact ⟨a, hreg, hna⟩
      · intro b hb
        rw [heap_write_cells]
        have hb' : h.node = some b := hb
        rcases ht with rfl | rfl | rfl
        · have : b = a := by have : h.node = some a := hreg; rw [hb'] at this; exact Option.some.inj this
          simp [this, OsmObj.fresh, Regs.step]
        · have := ndiff b a hb' hreg; simp [this, hn b hb', Regs.step]
        · have := ndiff2 b a hb' hreg; simp [this, hn b hb', Regs.step]
      · intro b hb
        rw [heap_write_cells]
        have hb' : h.way = some b := hb
        rcases ht with rfl | rfl | rfl
        · have := (ndiff a b hreg hb').symm; simp [this, hw b hb', Regs.step]
        · have : b = a := by have : h.way = some a := hreg; rw [hb'] at this; exact Option.some.inj this
          simp [this, OsmObj.fresh, Regs.step]
        · have := ndiff3 b a hb' hreg; simp [this, hw b hb', Regs.step]
      · intro b hb
        rw [heap_write_cells]
        have hb' : h.rel = some b := hb
        rcases ht with rfl | rfl | rfl
        · have := (ndiff2 a b hreg hb').symm; simp [this, hr b hb', Regs.step]
        · have := (ndiff3 a b hreg hb').symm; simp [this, hr b hb', Regs.step]
        · have : b = a := by have : h.rel = some a := hreg; rw [hb'] at this; exact Option.some.inj this
          simp [this, OsmObj.fresh, Regs.step]

/-- One disciplined operation: the invariant is kept, no object held by the handler changes, and the
calls are those made on plain values. -/
theorem heap_step (k : Keeps) (act act' : Option ObjType) (h : Heap) (log : List Cb) (r : Regs) (op : ROp)
    (hi : HeapInv act h r) (ht : op.track act = some act') :
    HeapInv act' (Heap.step k (h, log) op).1 (r.step op).1 ∧
    (∀ a ∈ h.held, (Heap.step k (h, log) op).1.cells a = h.cells a) ∧
    (Heap.step k (h, log) op).2 = log ++ (r.step op).2 := by
  have cb : ∀ (log' : List Cb) (passed : List Nat) (act' : Option ObjType),
      (∀ a ∈ passed, a < h.next) →
      (∀ t, act' = some t → ∃ a, h.reg t = some a ∧ a ∉ h.held ∧ a ∉ passed) →
      HeapInv act' (h.callback k log' passed) r := by
    intro log' passed act' hp hf
    refine ⟨?_, hi.reg_lt, ?_, hi.node, hi.way, hi.rel⟩
    · intro a ha
      simp only [Heap.callback, List.mem_filter, List.mem_append] at ha
      rcases ha.1 with h | h
      · exact hp a h
      · exact hi.held_lt a h
    · intro t htt
      obtain ⟨a, h1, h2, h3⟩ := hf t htt
      refine ⟨a, h1, ?_⟩
      simp [Heap.callback, h2, h3]
  have modc : ∀ (t : ObjType) (f : OsmObj → OsmObj) (r' : Regs), act = some t →
      (∀ a, h.reg t = some a →
        (∀ b, h.node = some b → (h.write a (f (h.cells a))).cells b = .node r'.node) ∧
        (∀ b, h.way = some b → (h.write a (f (h.cells a))).cells b = .way r'.way) ∧
        (∀ b, h.rel = some b → (h.write a (f (h.cells a))).cells b = .relation r'.rel)) →
      HeapInv act (h.modify (h.reg t) f) r' ∧
      (∀ a ∈ h.held, (h.modify (h.reg t) f).cells a = h.cells a) := by
    intro t f r' hact hcells
    obtain ⟨a, ha, hna⟩ := hi.free t hact
    obtain ⟨c1, c2, c3⟩ := hcells a ha
    rw [ha]
    refine ⟨⟨hi.held_lt, hi.reg_lt, hi.free, c1, c2, c3⟩, ?_⟩
    intro b hb
    show (if b = a then _ else _) = _
    rw [if_neg]; intro e; exact hna (e ▸ hb)
  cases op with
  | prepare t =>
    simp only [ROp.track] at ht
    split at ht
    · cases ht
      rename_i htt
      obtain ⟨p1, p2, _⟩ := prepare_spec h r act t htt hi
      refine ⟨p1, p2, ?_⟩
      rcases htt with rfl | rfl | rfl <;> simp [Heap.step, Regs.step]
    · cases ht
  | modNode f =>
    simp only [ROp.track] at ht
    split at ht
    · cases ht
      rename_i hact
      have := modc .node (onNode f) { r with node := f r.node } hact (by
        intro a ha
        have ha' : h.node = some a := ha
        refine ⟨?_, ?_, ?_⟩
        · intro b hb
          have : b = a := by rw [hb] at ha'; exact Option.some.inj ha'
          subst this
          simp [Heap.write, hi.node b hb, onNode]
        · intro b hb
          have : b ≠ a := by intro e; subst e; have := hi.node b ha'; rw [hi.way b hb] at this; cases this
          simp [Heap.write, this, hi.way b hb]
        · intro b hb
          have : b ≠ a := by intro e; subst e; have := hi.node b ha'; rw [hi.rel b hb] at this; cases this
          simp [Heap.write, this, hi.rel b hb])
      exact ⟨this.1, this.2, by simp [Heap.step, Regs.step]⟩
    · cases ht
  | modWay f =>
    simp only [ROp.track] at ht
    split at ht
    · cases ht
      rename_i hact
      have := modc .way (onWay f) { r with way := f r.way } hact (by
        intro a ha
        have ha' : h.way = some a := ha
        refine ⟨?_, ?_, ?_⟩
        · intro b hb
          have : b ≠ a := by intro e; subst e; have := hi.way b ha'; rw [hi.node b hb] at this; cases this
          simp [Heap.write, this, hi.node b hb]
        · intro b hb
          have : b = a := by rw [hb] at ha'; exact Option.some.inj ha'
          subst this
          simp [Heap.write, hi.way b hb, onWay]
        · intro b hb
          have : b ≠ a := by intro e; subst e; have := hi.way b ha'; rw [hi.rel b hb] at this; cases this
          simp [Heap.write, this, hi.rel b hb])
      exact ⟨this.1, this.2, by simp [Heap.step, Regs.step]⟩
    · cases ht
  | modRel f =>
    simp only [ROp.track] at ht
    split at ht
    · cases ht
      rename_i hact
      have := modc .relation (onRel f) { r with rel := f r.rel } hact (by
        intro a ha
        have ha' : h.rel = some a := ha
        refine ⟨?_, ?_, ?_⟩
        · intro b hb
          have : b ≠ a := by intro e; subst e; have := hi.rel b ha'; rw [hi.node b hb] at this; cases this
          simp [Heap.write, this, hi.node b hb]
        · intro b hb
          have : b ≠ a := by intro e; subst e; have := hi.rel b ha'; rw [hi.way b hb] at this; cases this
          simp [Heap.write, this, hi.way b hb]
        · intro b hb
          have : b = a := by rw [hb] at ha'; exact Option.some.inj ha'
          subst this
          simp [Heap.write, hi.rel b hb, onRel])
      exact ⟨this.1, this.2, by simp [Heap.step, Regs.step]⟩
    · cases ht
  | emit c =>
    simp only [ROp.track, Option.some.injEq] at ht
    subst ht
    refine ⟨cb _ [] act (by simp) ?_, fun a _ => rfl, rfl⟩
    intro t htt
    obtain ⟨a, h1, h2⟩ := hi.free t htt
    exact ⟨a, h1, h2, by simp⟩
  | call t =>
    simp only [ROp.track] at ht
    split at ht
    · cases ht
      rename_i hact
      obtain ⟨a, ha, _⟩ := hi.free t hact
      have hs : Heap.step k (h, log) (.call t) =
          (h.callback k (log ++ [.obj (h.cells a)]) [a], log ++ [.obj (h.cells a)]) := by
        simp [Heap.step, ha]
      rw [hs]
      have hr : (r.step (.call t)).1 = r := by cases t <;> rfl
      refine ⟨?_, fun a _ => rfl, ?_⟩
      · rw [hr]
        exact cb _ [a] none (by simpa using hi.reg_lt t a ha) (by simp)
      · have : (r.step (.call t)).2 = [.obj (h.cells a)] := by
          cases t with
          | node => simp [Regs.step, hi.node a ha]
          | way => simp [Regs.step, hi.way a ha]
          | relation => simp [Regs.step, hi.rel a ha]
          | unknown => simp [Heap.reg] at ha
          | area => simp [Heap.reg] at ha
        rw [this]
    · cases ht

theorem heap_run (k : Keeps) (ops : List ROp) (act act' : Option ObjType) (h : Heap) (log : List Cb)
    (r : Regs) (hi : HeapInv act h r) (ht : track act ops = some act') :
    HeapInv act' (Heap.run k (h, log) ops).1 (r.run ops).1 ∧
    (Heap.run k (h, log) ops).2 = log ++ (r.run ops).2 := by
  induction ops generalizing act h log r with
  | nil => cases ht; exact ⟨hi, by simp [Heap.run, Regs.run]⟩
  | cons op ops ih =>
    simp only [track, Option.bind_eq_some_iff] at ht
    obtain ⟨a1, h1, h2⟩ := ht
    obtain ⟨i1, _, i3⟩ := heap_step k act a1 h log r op hi h1
    have := ih a1 (Heap.step k (h, log) op).1 (Heap.step k (h, log) op).2 (r.step op).1 i1 h2
    rw [i3] at this
    simp only [Heap.run, List.foldl_cons, Regs.run] at this ⊢
    rw [show Heap.step k (h, log) op = ((Heap.step k (h, log) op).1, log ++ (r.step op).2) from Prod.ext rfl i3]
    refine ⟨this.1, ?_⟩
    rw [this.2, List.append_assoc]

/-- The handler holds a pointer during all of the operations. -/
def HeldThroughout (k : Keeps) (s : Heap × List Cb) (ops : List ROp) (a : Nat) : Prop :=
  ∀ pre, pre <+: ops → a ∈ (Heap.run k s pre).1.held

theorem held_run (k : Keeps) (ops : List ROp) (act act' : Option ObjType) (h : Heap) (log : List Cb)
    (r : Regs) (hi : HeapInv act h r) (ht : track act ops = some act') (a : Nat)
    (hh : HeldThroughout k (h, log) ops a) :
    (Heap.run k (h, log) ops).1.cells a = h.cells a := by
  induction ops generalizing act h log r with
  | nil => rfl
  | cons op ops ih =>
    simp only [track, Option.bind_eq_some_iff] at ht
    obtain ⟨a1, h1, h2⟩ := ht
    obtain ⟨i1, i2, i3⟩ := heap_step k act a1 h log r op hi h1
    have hold : a ∈ h.held := hh [] (List.nil_prefix)
    have := ih a1 (Heap.step k (h, log) op).1 (Heap.step k (h, log) op).2 (r.step op).1 i1 h2 (by
      intro pre hp
      exact hh (op :: pre) (List.cons_prefix_cons.2 ⟨rfl, hp⟩))
    simp only [Heap.run, List.foldl_cons] at this ⊢
    rw [this, i2 a hold]

/-- **C23**, for any reader that modifies objects only between preparing them and passing them on, and
for any handler (keeping and dropping pointers in any pattern): the calls are those on plain values (so
whether pointers are kept or not makes no difference to what later callbacks see). -/
theorem shared_calls (k : Keeps) (ops : List ROp) (act : Option ObjType)
    (ht : track none ops = some act) :
    (Heap.run k (Heap.init, []) ops).2 = (Regs.init.run ops).2 := by
  have := (heap_run k ops none act Heap.init [] Regs.init heapInv_init ht).2
  simpa using this

/-- **C23**, continued: the object passed to the handler by the callback between `before` and `after`
is at some address `a` and is a fresh object built since its preparation; as long as the handler holds the pointer, the
object keeps the value it was passed with. -/
theorem shared_unchanged (k : Keeps) (before after : List ROp) (t : ObjType) (act : Option ObjType)
    (ht : track none (before ++ .call t :: after) = some act) :
    ∃ a v, (Heap.run k (Heap.init, []) before).1.reg t = some a ∧
      (Heap.run k (Heap.init, []) (before ++ [.call t])).2 =
        (Heap.run k (Heap.init, []) before).2 ++ [.obj v] ∧
      ∀ mid, mid <+: after →
        HeldThroughout k (Heap.run k (Heap.init, []) (before ++ [.call t])) mid a →
        (Heap.run k (Heap.init, []) (before ++ [.call t] ++ mid)).1.cells a = v := by
  rw [track_append, Option.bind_eq_some_iff] at ht
  obtain ⟨a1, t1, t2⟩ := ht
  simp only [track, Option.bind_eq_some_iff] at t2
  obtain ⟨a2, t2, t3⟩ := t2
  have hi := (heap_run k before none a1 Heap.init [] Regs.init heapInv_init t1).1
  simp only [ROp.track] at t2
  split at t2
  · rename_i hact
    obtain ⟨a, ha, _⟩ := hi.free t hact
    cases t2
    rcases hs : Heap.run k (Heap.init, []) before with ⟨h, log⟩
    rw [hs] at hi ha
    have hrun : Heap.run k (Heap.init, []) (before ++ [.call t]) =
        (h.callback k (log ++ [.obj (h.cells a)]) [a], log ++ [.obj (h.cells a)]) := by
      have : Heap.run k (Heap.init, []) (before ++ [.call t]) = Heap.step k (h, log) (.call t) := by
        simp [Heap.run, List.foldl_append] at hs ⊢
        rw [hs]
      rw [this]; simp [Heap.step, ha]
    refine ⟨a, h.cells a, ha, by rw [hrun], ?_⟩
    intro mid hmid hheld
    rw [hrun] at hheld
    have hrun2 : Heap.run k (Heap.init, []) (before ++ [.call t] ++ mid) =
        Heap.run k (h.callback k (log ++ [.obj (h.cells a)]) [a], log ++ [.obj (h.cells a)]) mid := by
      rw [← hrun]; simp only [Heap.run, List.foldl_append]
    rw [hrun2]
    have hi2 := (heap_step k a1 none h log _ (.call t) hi (by simp [ROp.track, hact])).1
    rw [show Heap.step k (h, log) (.call t) =
        (h.callback k (log ++ [.obj (h.cells a)]) [a], log ++ [.obj (h.cells a)]) from by
          simp [Heap.step, ha]] at hi2
    obtain ⟨rest, hrest⟩ := hmid
    rw [← hrest, track_append, Option.bind_eq_some_iff] at t3
    obtain ⟨a3, t3, _⟩ := t3
    rw [held_run k mid none a3 _ _ _ hi2 t3 a hheld]
    rfl
  · cases t2

end Osmium
