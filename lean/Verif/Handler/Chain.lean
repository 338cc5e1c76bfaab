import Verif.Input.Model

/-
C38: chains of handlers, handler.hpp.

A handler is a state machine.  A callback may modify the object (or the meta information) it is
given, because handlers get a `shared_ptr` to a non-const object, so a step also yields the
callback's argument as it is afterwards; and it may throw `StopReading`.
-/
namespace Osmium

/-- What the method `area` is given: an area (osm/area.hpp 58-63), without its geometry. -/
abbrev AreaArg := Obj × List WayNode

/-- handler.hpp 69-117: one step of a handler: new state, the argument afterwards, and whether
`StopReading` (58-59) was thrown.  The callbacks made by readers are `step`; `area` is called by
the multipolygon assembler.  A handler that does not define `area` inherits the empty one (111). -/
structure HandlerM (σ : Type) where
  step : σ → Cb → σ × Cb × Bool
  area : σ → AreaArg → σ × AreaArg × Bool := fun s a => (s, a, false)

/-- handler.hpp 69-117 class `Base`: all methods are empty.  (There are no methods for the end and
the beginning of a section of objects of unknown type or of areas.) -/
def baseH : HandlerM Unit where
  step _ c := ((), c, false)

/-- handler.hpp 125-196 class `Forward`: every method calls a method of the next handler. -/
def forwardH {σ : Type} (h : HandlerM σ) : HandlerM σ where
  step s
    | .init m => h.step s (.init m)
    | .before .node => h.step s (.before .node)
    | .obj (.node n) => h.step s (.obj (.node n))
    | .after .node => h.step s (.after .node)
    | .before .way => h.step s (.before .way)
    | .obj (.way w) => h.step s (.obj (.way w))
    | .after .way => h.step s (.after .way)
    | .before .relation => h.step s (.before .relation)
    | .obj (.relation r) => h.step s (.obj (.relation r))
    | .after .relation => h.step s (.after .relation)
    | .final => h.step s .final
    | c => (s, c, false)
  area s a := h.area s a

/-- Two calls one after the other with the same argument: the second sees what the first made of
it.  If the first throws, the second is not made. (handler.hpp 212-270: the bodies of the methods
of `Sequence`) -/
def both {σ τ α : Type} (f : σ → α → σ × α × Bool) (g : τ → α → τ × α × Bool) (s : σ × τ) (a : α) :
    (σ × τ) × α × Bool :=
  let r := f s.1 a
  if r.2.2 then ((r.1, s.2), r.2.1, true)
  else
    let q := g s.2 r.2.1
    ((r.1, q.1), q.2.1, q.2.2)

/-- handler.hpp 203-282 class `Sequence`: every method calls a method of the first and then of the
second handler. -/
def sequenceH {σ τ : Type} (h₁ : HandlerM σ) (h₂ : HandlerM τ) : HandlerM (σ × τ) where
  step s
    | .init m => both h₁.step h₂.step s (.init m)
    | .before .node => both h₁.step h₂.step s (.before .node)
    | .obj (.node n) => both h₁.step h₂.step s (.obj (.node n))
    | .after .node => both h₁.step h₂.step s (.after .node)
    | .before .way => both h₁.step h₂.step s (.before .way)
    | .obj (.way w) => both h₁.step h₂.step s (.obj (.way w))
    | .after .way => both h₁.step h₂.step s (.after .way)
    | .before .relation => both h₁.step h₂.step s (.before .relation)
    | .obj (.relation r) => both h₁.step h₂.step s (.obj (.relation r))
    | .after .relation => both h₁.step h₂.step s (.after .relation)
    | .final => both h₁.step h₂.step s .final
    | c => (s, c, false)
  area s a := both h₁.area h₂.area s a

/-- A call of one of the twelve methods. (handler.hpp 81-116) -/
inductive HCall
  | cb (c : Cb)
  | area (a : AreaArg)
deriving DecidableEq, Repr

/-- The call of a method. (handler.hpp 81-116) -/
def HandlerM.call {σ : Type} (h : HandlerM σ) (s : σ) : HCall → σ × HCall × Bool
  | .cb c => ((h.step s c).1, .cb (h.step s c).2.1, (h.step s c).2.2)
  | .area a => ((h.area s a).1, .area (h.area s a).2.1, (h.area s a).2.2)

/-- A caller making the calls one after the other until one throws: final state, the arguments
afterwards, and whether a call threw. (a caller: input.hpp 101-157 makes such calls) -/
def HandlerM.runAll {σ : Type} (h : HandlerM σ) : σ → List HCall → σ × List HCall × Bool
  | s, [] => (s, [], false)
  | s, c :: cs =>
    let r := h.call s c
    if r.2.2 then (r.1, [r.2.1], true)
    else
      let q := h.runAll r.1 cs
      (q.1, r.2.1 :: q.2.1, q.2.2)

/-- The same for the callbacks of a reader. (input.hpp 101-157) -/
def HandlerM.run {σ : Type} (h : HandlerM σ) : σ → List Cb → σ × List Cb × Bool
  | s, [] => (s, [], false)
  | s, c :: cs =>
    let r := h.step s c
    if r.2.2 then (r.1, [r.2.1], true)
    else
      let q := h.run r.1 cs
      (q.1, r.2.1 :: q.2.1, q.2.2)

namespace Spec

/-- The handler interface has a method for this call. (specification, no counterpart in /repo) -/
def isMethod : HCall → Prop
  | .cb (.before t) => t = .node ∨ t = .way ∨ t = .relation
  | .cb (.after t) => t = .node ∨ t = .way ∨ t = .relation
  | _ => True

/-- A handler as a user sees it: it gets calls of the twelve methods only, and what it does to an
argument does not change the kind of call. (specification, no counterpart in /repo) -/
def Proper {σ : Type} (h : HandlerM σ) : Prop :=
  ∀ s c, isMethod c → isMethod (h.call s c).2.1

end Spec
open Spec

theorem forward_call {σ : Type} (h : HandlerM σ) (s : σ) (c : HCall) (hc : isMethod c) :
    (forwardH h).call s c = h.call s c := by
  match c, hc with
  | .area a, _ => rfl
  | .cb (.init m), _ => rfl
  | .cb .final, _ => rfl
  | .cb (.obj (.node n)), _ => rfl
  | .cb (.obj (.way n)), _ => rfl
  | .cb (.obj (.relation n)), _ => rfl
  | .cb (.before .node), _ => rfl
  | .cb (.before .way), _ => rfl
  | .cb (.before .relation), _ => rfl
  | .cb (.after .node), _ => rfl
  | .cb (.after .way), _ => rfl
  | .cb (.after .relation), _ => rfl
  | .cb (.before .area), h => simp [isMethod] at h
  | .cb (.before .unknown), h => simp [isMethod] at h
  | .cb (.after .area), h => simp [isMethod] at h
  | .cb (.after .unknown), h => simp [isMethod] at h

theorem sequence_call {σ τ : Type} (h₁ : HandlerM σ) (h₂ : HandlerM τ) (s : σ × τ) (c : HCall)
    (hc : isMethod c) :
    (sequenceH h₁ h₂).call s c =
      let r := h₁.call s.1 c
      if r.2.2 then ((r.1, s.2), r.2.1, true)
      else ((r.1, (h₂.call s.2 r.2.1).1), (h₂.call s.2 r.2.1).2) := by
  have key : ∀ c', both h₁.step h₂.step s c' = (sequenceH h₁ h₂).step s c' →
      (sequenceH h₁ h₂).call s (.cb c') =
      let r := h₁.call s.1 (.cb c')
      if r.2.2 then ((r.1, s.2), r.2.1, true)
      else ((r.1, (h₂.call s.2 r.2.1).1), (h₂.call s.2 r.2.1).2) := by
    intro c' e
    simp only [HandlerM.call, ← e, both]
    by_cases hx : (h₁.step s.1 c').2.2 = true <;> simp [hx]
  match c, hc with
  | .area a, _ =>
    simp only [HandlerM.call, sequenceH, both]
    by_cases hx : (h₁.area s.1 a).2.2 = true <;> simp [hx]
  | .cb (.init m), _ => exact key _ rfl
  | .cb .final, _ => exact key _ rfl
  | .cb (.obj (.node n)), _ => exact key _ rfl
  | .cb (.obj (.way n)), _ => exact key _ rfl
  | .cb (.obj (.relation n)), _ => exact key _ rfl
  | .cb (.before .node), _ => exact key _ rfl
  | .cb (.before .way), _ => exact key _ rfl
  | .cb (.before .relation), _ => exact key _ rfl
  | .cb (.after .node), _ => exact key _ rfl
  | .cb (.after .way), _ => exact key _ rfl
  | .cb (.after .relation), _ => exact key _ rfl
  | .cb (.before .area), h => simp [isMethod] at h
  | .cb (.before .unknown), h => simp [isMethod] at h
  | .cb (.after .area), h => simp [isMethod] at h
  | .cb (.after .unknown), h => simp [isMethod] at h

/-- The base class does nothing at all. -/
theorem base_run (cs : List HCall) : baseH.runAll () cs = ((), cs, false) := by
  induction cs with
  | nil => rfl
  | cons c cs ih => cases c <;> simp only [HandlerM.runAll, HandlerM.call, baseH] at ih ⊢ <;> rw [ih] <;> rfl

/-- **C38.**  Forwarding changes nothing. -/
theorem forward_run {σ : Type} (h : HandlerM σ) (s : σ) (cs : List HCall)
    (hcs : ∀ c ∈ cs, isMethod c) :
    (forwardH h).runAll s cs = h.runAll s cs := by
  induction cs generalizing s with
  | nil => rfl
  | cons c cs ih =>
    simp only [HandlerM.runAll, forward_call h s c (hcs c (by simp))]
    rw [ih _ (fun x hx => hcs x (by simp [hx]))]

/-- **C38.**  As long as no handler throws, the first handler of a sequence gets every callback
with its argument, the second handler every callback as the first one left it, and the caller
sees what the second made of it. -/
theorem sequence_run {σ τ : Type} (h₁ : HandlerM σ) (h₂ : HandlerM τ) (s : σ) (t : τ)
    (cs : List HCall) (hcs : ∀ c ∈ cs, isMethod c) {s' : σ} {t' : τ} {cs₁ cs₂ : List HCall}
    (e₁ : h₁.runAll s cs = (s', cs₁, false)) (e₂ : h₂.runAll t cs₁ = (t', cs₂, false)) :
    (sequenceH h₁ h₂).runAll (s, t) cs = ((s', t'), cs₂, false) := by
  induction cs generalizing s t cs₁ cs₂ with
  | nil =>
    simp only [HandlerM.runAll, Prod.mk.injEq] at e₁
    obtain ⟨rfl, rfl, -⟩ := e₁
    simp only [HandlerM.runAll, Prod.mk.injEq] at e₂
    obtain ⟨rfl, rfl, -⟩ := e₂
    rfl
  | cons c cs ih =>
    have hc := hcs c (by simp)
    replace hcs : ∀ c ∈ cs, isMethod c := fun x hx => hcs x (by simp [hx])
    simp only [HandlerM.runAll] at e₁
    split at e₁
    · simp at e₁
    · rename_i hx
      simp only [Prod.mk.injEq] at e₁
      obtain ⟨h1, h2, h3⟩ := e₁
      subst h2
      simp only [HandlerM.runAll] at e₂
      split at e₂
      · simp at e₂
      · rename_i hy
        simp only [Prod.mk.injEq] at e₂
        obtain ⟨g1, g2, g3⟩ := e₂
        have := ih _ _ hcs (Prod.ext h1 (Prod.ext rfl h3))
          (Prod.ext g1 (Prod.ext rfl g3))
        simp only [HandlerM.runAll, sequence_call _ _ _ _ hc]
        simp only [hx, hy, Bool.false_eq_true, if_false, this, g2]

/-- **C38**, exceptions: if the first handler throws at some callback, the second has seen exactly
the callbacks before it, not this one. -/
theorem sequence_first_throws {σ τ : Type} (h₁ : HandlerM σ) (h₂ : HandlerM τ) (s : σ) (t : τ)
    (cs : List HCall) (hcs : ∀ c ∈ cs, isMethod c) {s' : σ} {t' : τ} {cs₁ cs₂ : List HCall} {c₁ : HCall}
    (e₁ : h₁.runAll s cs = (s', cs₁ ++ [c₁], true)) (e₂ : h₂.runAll t cs₁ = (t', cs₂, false)) :
    (sequenceH h₁ h₂).runAll (s, t) cs = ((s', t'), cs₂ ++ [c₁], true) := by
  induction cs generalizing s t cs₁ cs₂ with
  | nil => simp [HandlerM.runAll] at e₁
  | cons c cs ih =>
    have hc := hcs c (by simp)
    replace hcs : ∀ c ∈ cs, isMethod c := fun x hx => hcs x (by simp [hx])
    simp only [HandlerM.runAll] at e₁
    split at e₁
    · rename_i hx
      simp only [Prod.mk.injEq] at e₁
      obtain ⟨h1, h2, -⟩ := e₁
      cases cs₁ with
      | cons a l => simp at h2
      | nil =>
        simp only [List.nil_append, List.cons.injEq, and_true] at h2
        simp only [HandlerM.runAll, Prod.mk.injEq] at e₂
        obtain ⟨rfl, rfl, -⟩ := e₂
        simp only [HandlerM.runAll, sequence_call _ _ _ _ hc, hx, if_true, h1, h2, List.nil_append]
    · rename_i hx
      simp only [Prod.mk.injEq] at e₁
      obtain ⟨h1, h2, h3⟩ := e₁
      cases cs₁ with
      | nil =>
        exfalso
        simp only [List.nil_append, List.cons.injEq] at h2
        cases cs with
        | nil => simp [HandlerM.runAll] at h3
        | cons d ds =>
          have h4 := h2.2
          simp only [HandlerM.runAll] at h4
          split at h4 <;> simp at h4
      | cons a l =>
        simp only [List.cons_append, List.cons.injEq] at h2
        obtain ⟨ha, hl⟩ := h2
        subst ha
        simp only [HandlerM.runAll] at e₂
        split at e₂
        · simp at e₂
        · rename_i hy
          simp only [Prod.mk.injEq] at e₂
          obtain ⟨g1, g2, g3⟩ := e₂
          have := ih _ _ hcs (Prod.ext h1 (Prod.ext hl h3))
            (Prod.ext g1 (Prod.ext rfl g3))
          simp only [HandlerM.runAll, sequence_call _ _ _ _ hc]
          simp only [hx, hy, Bool.false_eq_true, if_false, this, ← g2, List.cons_append]

/-- **C38**, exceptions: if the second handler throws at some callback, the first has seen the
callbacks up to and including this one. -/
theorem sequence_second_throws {σ τ : Type} (h₁ : HandlerM σ) (h₂ : HandlerM τ) (s : σ) (t : τ)
    (cs rest : List HCall) (hcs : ∀ c ∈ cs, isMethod c) {s' : σ} {t' : τ} {cs₁ cs₂ : List HCall}
    (e₁ : h₁.runAll s cs = (s', cs₁, false)) (e₂ : h₂.runAll t cs₁ = (t', cs₂, true))
    (hall : cs₂.length = cs.length) :
    (sequenceH h₁ h₂).runAll (s, t) (cs ++ rest) = ((s', t'), cs₂, true) := by
  induction cs generalizing s t cs₁ cs₂ with
  | nil =>
    simp only [HandlerM.runAll, Prod.mk.injEq] at e₁
    obtain ⟨rfl, rfl, -⟩ := e₁
    simp [HandlerM.runAll] at e₂
  | cons c cs ih =>
    have hc := hcs c (by simp)
    replace hcs : ∀ c ∈ cs, isMethod c := fun x hx => hcs x (by simp [hx])
    simp only [HandlerM.runAll] at e₁
    split at e₁
    · simp at e₁
    · rename_i hx
      simp only [Prod.mk.injEq] at e₁
      obtain ⟨h1, h2, h3⟩ := e₁
      subst h2
      simp only [HandlerM.runAll] at e₂
      split at e₂
      · rename_i hy
        simp only [Prod.mk.injEq] at e₂
        obtain ⟨g1, g2, -⟩ := e₂
        subst g2
        have : cs = [] := by
          simp only [List.length_cons, List.length_nil] at hall
          exact List.eq_nil_of_length_eq_zero (by omega)
        subst this
        simp only [HandlerM.runAll] at h1
        simp only [List.cons_append, HandlerM.runAll, sequence_call _ _ _ _ hc, hx, hy,
          Bool.false_eq_true, if_false, if_true, g1, h1]
      · rename_i hy
        simp only [Prod.mk.injEq] at e₂
        obtain ⟨g1, g2, g3⟩ := e₂
        subst g2
        have := ih _ _ hcs (Prod.ext h1 (Prod.ext rfl h3))
          (Prod.ext g1 (Prod.ext rfl g3)) (by simpa using hall)
        simp only [List.cons_append, HandlerM.runAll, sequence_call _ _ _ _ hc] at this ⊢
        simp only [hx, hy, Bool.false_eq_true, if_false, this]

/-- **C38.**  Nesting sequences to the left or to the right makes no difference. -/
theorem sequence_assoc {σ τ υ : Type} (h₁ : HandlerM σ) (h₂ : HandlerM τ) (h₃ : HandlerM υ)
    (hp₁ : Proper h₁) (s : σ) (t : τ) (u : υ) (cs : List HCall) (hcs : ∀ c ∈ cs, isMethod c) :
    (let r := (sequenceH (sequenceH h₁ h₂) h₃).runAll ((s, t), u) cs
     ((r.1.1.1, r.1.1.2, r.1.2), r.2)) =
    (sequenceH h₁ (sequenceH h₂ h₃)).runAll (s, t, u) cs := by
  induction cs generalizing s t u with
  | nil => rfl
  | cons c cs ih =>
    have hc := hcs c (by simp)
    have ih := fun s t u => ih s t u (fun x hx => hcs x (List.mem_cons_of_mem _ hx))
    simp only [HandlerM.runAll, sequence_call _ _ _ _ hc, sequence_call _ _ _ _ (hp₁ s c hc)] at ih ⊢
    by_cases hx : (h₁.call s c).2.2 = true
    · simp [hx]
    · by_cases hy : (h₂.call t (h₁.call s c).2.1).2.2 = true
      · simp [hx, hy]
      · by_cases hz : (h₃.call u (h₂.call t (h₁.call s c).2.1).2.1).2.2 = true
        · simp [hx, hy, hz]
        · simp only [hx, hy, hz, Bool.false_eq_true, if_false]
          rw [← ih]

/-- A handler that records its callbacks and throws at the `k`-th one. (data for the examples, no
counterpart in /repo) -/
def recorder (k : Nat) : HandlerM (List HCall) where
  step s c := (s ++ [.cb c], c, s.length + 1 == k)
  area s a := (s ++ [.area a], a, s.length + 1 == k)

/-- A handler that changes objects: it clears the tags of nodes. (data for the examples, no
counterpart in /repo) -/
def tagRemover : HandlerM Unit where
  step s c := (s, (match c with
    | .obj (.node n) => .obj (.node { n with obj := { n.obj with tags := [] } })
    | c => c), false)

/-- These handlers meet the hypothesis of `sequence_assoc`. -/
theorem recorder_proper (k : Nat) : Proper (recorder k) := by
  intro s c hc
  cases c <;> exact hc

/-- see `recorder_proper` -/
theorem tagRemover_proper : Proper tagRemover := by
  intro s c hc
  match c, hc with
  | .area a, _ => trivial
  | .cb (.obj (.node n)), _ => trivial
  | .cb (.obj (.way w)), _ => trivial
  | .cb (.obj (.relation r)), _ => trivial
  | .cb (.init m), _ => trivial
  | .cb .final, _ => trivial
  | .cb (.before t), hc => exact hc
  | .cb (.after t), hc => exact hc

/-- Data for the examples, no counterpart in /repo. -/
private def demoCalls : List HCall :=
  [.cb (.init (Meta.new false)), .cb (.before .node),
   .cb (.obj (.node ⟨{ Obj.new with id := 1, tags := [⟨"a", "b"⟩] }, ⟨0, 0⟩⟩)), .cb (.after .node),
   .area ({ Obj.new with id := 2 }, []), .cb .final]

example : (∀ c ∈ demoCalls, isMethod c) ∧
    ((sequenceH tagRemover (forwardH (recorder 0))).runAll ((), []) demoCalls).1.2 =
    [.cb (.init (Meta.new false)), .cb (.before .node),
     .cb (.obj (.node ⟨{ Obj.new with id := 1 }, ⟨0, 0⟩⟩)), .cb (.after .node),
     .area ({ Obj.new with id := 2 }, []), .cb .final] ∧
    ((sequenceH (recorder 2) (recorder 0)).runAll ([], []) demoCalls) =
      (([.cb (.init (Meta.new false)), .cb (.before .node)], [.cb (.init (Meta.new false))]),
       [.cb (.init (Meta.new false)), .cb (.before .node)], true) ∧
    ((sequenceH (recorder 0) (recorder 2)).runAll ([], []) demoCalls) =
      (([.cb (.init (Meta.new false)), .cb (.before .node)],
        [.cb (.init (Meta.new false)), .cb (.before .node)]),
       [.cb (.init (Meta.new false)), .cb (.before .node)], true) := by
  refine ⟨?_, ?_⟩
  · intro c hc
    simp only [demoCalls, List.mem_cons, List.not_mem_nil, or_false] at hc
    rcases hc with rfl | rfl | rfl | rfl | rfl | rfl <;> simp [isMethod]
  · decide +kernel

end Osmium
