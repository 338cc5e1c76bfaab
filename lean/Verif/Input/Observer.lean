import Verif.Input.Props
/-
C21 and C22 for arbitrary input: the protocol observer run along with a reader.
-/
namespace Osmium
open Spec

/-- The state of the observer when the type of the last object is `t`. (helper for statements and
proofs, no counterpart in /repo) -/
def obsState : ObjType → PState
  | .unknown => .fresh
  | t => .inside t

/-- The types `m_last_object_type` can have. (helper for statements and proofs, no counterpart in
/repo) -/
def ReaderType (t : ObjType) : Prop := t ≠ .area

theorem obs_after_before (m : Meta) (last cur : ObjType) (hl : ReaderType last)
    (hc : cur = .node ∨ cur = .way ∨ cur = .relation) :
    (afterAndBefore m last cur).foldl PState.step (obsState last) = obsState cur := by
  unfold ReaderType at hl
  rcases hc with rfl | rfl | rfl <;> cases last <;> first | exact absurd rfl hl | rfl

theorem obs_objs (t : ObjType) (l : List Cb) (h : ∀ c ∈ l, ∃ o : OsmObj, c = .obj o ∧ o.type = t) :
    l.foldl PState.step (.inside t) = .inside t := by
  induction l with
  | nil => rfl
  | cons c l ih =>
    obtain ⟨o, rfl, ho⟩ := h c (by simp)
    rw [List.foldl_cons]
    have : PState.step (.inside t) (.obj o) = .inside t := by simp [PState.step, ho]
    rw [this]; exact ih (fun c hc => h c (by simp [hc]))

/-- After the calls of `e`, made when the last type was `last`, the observer is content, and if
there was no failure it knows the type of the last object. (helper for statements and proofs, no
counterpart in /repo) -/
def ObsOk (last : ObjType) (e : Events) (last' : ObjType) : Prop :=
  ReaderType last' ∧
  ∃ l, ReaderType l ∧ e.calls.foldl PState.step (obsState last) = obsState l ∧
    (e.fail = none → l = last')

theorem ObsOk.seq {a b c : ObjType} {e f : Events} (h1 : ObsOk a e b) (h2 : ObsOk b f c) :
    ObsOk a (e.seq f) c := by
  obtain ⟨_, l, hl, e1, g1⟩ := h1
  obtain ⟨hc, l2, hl2, e2, g2⟩ := h2
  refine ⟨hc, ?_⟩
  unfold Events.seq
  cases hf : e.fail with
  | some x => exact ⟨l, hl, e1, by simp⟩
  | none =>
    have := g1 hf
    subst this
    exact ⟨l2, hl2, by simp only [List.foldl_append, e1, e2], g2⟩

theorem bad_absorbs (l : List Cb) : l.foldl PState.step .bad = .bad := by
  induction l with
  | nil => rfl
  | cons c l ih => rw [List.foldl_cons, show PState.step .bad c = .bad from rfl, ih]

theorem done_ends (l : List Cb) : l ≠ [] → l.foldl PState.step .done = .bad := by
  cases l with
  | nil => simp
  | cons c l => intro _; rw [List.foldl_cons, show PState.step .done c = .bad from rfl, bad_absorbs]

theorem FollowsSoFar.prefix {a b : List Cb} (h : FollowsSoFar b) (hp : a <+: b) : FollowsSoFar a := by
  obtain ⟨t, rfl⟩ := hp
  unfold FollowsSoFar at *
  rw [List.foldl_append] at h
  constructor
  · intro e; rw [e, bad_absorbs] at h; exact h.1 rfl
  · intro e
    rw [e] at h
    by_cases ht : t = []
    · subst ht; exact h.2 rfl
    · rw [done_ends t ht] at h; exact h.1 rfl

theorem obsState_soFar (t : ObjType) : obsState t ≠ .bad ∧ obsState t ≠ .done := by
  cases t <;> simp [obsState]

/-- Whatever a reader calls (as long as the observer is content), and wherever the handler throws
`StopReading`: the calls other than `final` follow the protocol; `parse` either returns, and then
`final` has been called exactly once, after all other calls, or throws, and then `final` has not
been called. -/
theorem frame_protocol (h : Stops) (ev : Events) (m : Meta) (last : ObjType)
    (ho : ObsOk .unknown ev last) :
    ∃ pre, FollowsSoFar pre ∧
      (parseFrame h ev (afterAndBefore m last .unknown) = (pre ++ [.final], .returned) ∨
       ∃ e, parseFrame h ev (afterAndBefore m last .unknown) = (pre, .threw e)) := by
  obtain ⟨hlast, l, hl, e1, g1⟩ := ho
  have hso : FollowsSoFar ev.calls := by
    unfold FollowsSoFar
    rw [show PState.fresh = obsState .unknown from rfl, e1]; exact obsState_soFar l
  have hend : ev.fail = none →
      FollowsSoFar (ev.calls ++ afterAndBefore m last .unknown) := by
    intro hf
    have := g1 hf
    subst this
    unfold FollowsSoFar
    rw [List.foldl_append, show PState.fresh = obsState .unknown from rfl, e1]
    cases l <;> first | exact absurd rfl hl | simp [afterAndBefore, afterCalls, beforeCalls, obsState, PState.step]
  unfold parseFrame
  rcases deliver_spec h ev.calls [] with ⟨e, _⟩ | ⟨k, hk, _, _, e⟩
  · rw [e]
    simp only [List.nil_append]
    cases hf : ev.fail with
    | some x => exact ⟨ev.calls, hso, Or.inr ⟨x, rfl⟩⟩
    | none =>
      simp only
      rcases deliver_spec h (afterAndBefore m last .unknown) ev.calls with ⟨e2, _⟩ | ⟨k2, hk2, _, _, e2⟩
      · rw [e2]; exact ⟨_, hend hf, Or.inl rfl⟩
      · rw [e2]
        exact ⟨_, FollowsSoFar.prefix (hend hf) ((List.prefix_append_right_inj _).2 (List.take_prefix _ _)),
          Or.inl rfl⟩
  · rw [e]
    exact ⟨_, FollowsSoFar.prefix hso (List.take_prefix _ _), Or.inl rfl⟩

/-- With a handler that never throws: if `parse` returns, the calls follow the complete protocol, or
only `final` has been called. -/
theorem frame_protocol_complete (h : Stops) (hh : ∀ l, h l = false) (ev : Events) (m : Meta)
    (last : ObjType) (ho : ObsOk .unknown ev last) (calls : List Cb)
    (hr : parseFrame h ev (afterAndBefore m last .unknown) = (calls, .returned)) :
    calls = [.final] ∨ Follows calls := by
  rw [no_stop _ _ h hh] at hr
  obtain ⟨hlast, l, hl, e1, g1⟩ := ho
  cases hf : ev.fail with
  | some e => rw [hf] at hr; cases hr
  | none =>
    rw [hf] at hr
    simp only [Prod.mk.injEq, and_true] at hr
    subst hr
    have := g1 hf
    subst this
    by_cases hu : l = .unknown
    · left
      subst hu
      have hnil : ev.calls = [] := by
        cases hc : ev.calls with
        | nil => rfl
        | cons x xs =>
          exfalso
          rw [hc, List.foldl_cons] at e1
          -- the observer never returns to its first state
          have never : ∀ (l : List Cb) (s : PState), s ≠ .fresh → l.foldl PState.step s ≠ .fresh := by
            intro l
            induction l with
            | nil => intro s h; exact h
            | cons c l ih =>
              intro s h
              rw [List.foldl_cons]
              apply ih
              cases s <;> cases c <;> simp [PState.step] at h ⊢ <;> split <;> simp
          refine never xs _ ?_ e1
          cases x <;> simp [obsState, PState.step]
      simp [hnil, afterAndBefore]
    · right
      unfold Follows
      rw [List.foldl_append, List.foldl_append, show PState.fresh = obsState .unknown from rfl, e1]
      cases l <;> first | exact absurd rfl hl | exact absurd rfl hu | simp [afterAndBefore, afterCalls, beforeCalls, obsState, PState.step]

end Osmium
