import Verif.Javascript.Lifetime

/-
Property C97: what a script has exists as long as it may use it.
-/
namespace Osmium
open Spec

namespace Spec

/-- The beginning of every history. -/
def ScriptView.init (objs : Nat → Bool) : ScriptView := ⟨objs, none, [], fun _ => false, fun _ => false⟩

/-- All Javascript objects of the history after the events. -/
def ScriptView.after (s : ScriptView) (ops : List ScriptOp) : ScriptView := ops.foldl ScriptView.step s

end Spec

/-- (helper) What a Javascript object made like this has behind it. -/
def Behind (w : ScriptWorld) (v : Nat) : Bool × Nat × Bool → Prop
  | (false, k, n) => n = true ∧ w.values v = some (.inside k)
  | (true, k, n) => ∃ p, w.values v = some (.geometry p) ∧ w.geoms p = some (if n then some k else none)

/-- (helper) Between the program and what is known about the history. -/
structure LifeInv (w : ScriptWorld) (s : ScriptView) : Prop where
  objects : w.objects = s.exist
  current : w.current = s.current
  next : w.nextValue = s.made.length
  held : w.held = s.held
  gone : ∀ v, (s.made.length ≤ v ∨ s.gone v = true) → w.values v = none
  behind : ∀ v m, s.made[v]? = some m → s.gone v = false → Behind w v m
  own : ∀ v v' p, w.values v = some (.geometry p) → w.values v' = some (.geometry p) → v = v'
  bound : ∀ p, w.geoms p ≠ none → p < w.nextGeom
  noleak : ∀ p, w.geoms p ≠ none → ∃ v, w.values v = some (.geometry p)
  exist : ∀ k, s.current = some k → s.exist k = true
  reach : ∀ v, s.held v = true → v < s.made.length ∧ s.gone v = false
  later : ∀ v, s.gone v = true → v < s.made.length

theorem lifeInv_init (objs : Nat → Bool) : LifeInv (ScriptWorld.init objs) (ScriptView.init objs) where
  objects := rfl
  current := rfl
  next := rfl
  held := rfl
  gone := fun _ _ => rfl
  behind := fun v m h => by simp [ScriptView.init] at h
  own := fun v v' p h => by cases h
  bound := fun p h => absurd rfl h
  noleak := fun p h => absurd rfl h
  exist := fun k h => by cases h
  reach := fun v h => by cases h
  later := fun v h => by cases h

/-- A Javascript object that is not a geometry is made. -/
theorem LifeInv.wrapInside {w : ScriptWorld} {s : ScriptView} (h : LifeInv w s) (k : Nat) :
    LifeInv (w.wrap (.inside k)) { s with made := s.made ++ [(false, k, true)],
                                          held := Function.update s.held s.made.length true } where
  objects := h.objects
  current := h.current
  next := by simp [ScriptWorld.wrap, h.next]
  held := by simp only [ScriptWorld.wrap, h.next, h.held]
  gone := by
    intro v hv
    simp only [ScriptWorld.wrap, Function.update_apply, h.next]
    rw [if_neg]
    · refine h.gone v ?_
      simp only [List.length_append, List.length_cons, List.length_nil] at hv
      rcases hv with hv | hv
      · left; omega
      · right; exact hv
    · rintro rfl
      simp only [List.length_append, List.length_cons, List.length_nil] at hv
      rcases hv with hv | hv
      · omega
      · exact absurd (h.later _ hv) (Nat.lt_irrefl _)
  behind := by
    intro v m hm hg
    by_cases e : v = s.made.length
    · subst e
      rw [List.getElem?_append_right (Nat.le_refl _)] at hm
      simp only [Nat.sub_self, List.getElem?_cons_zero, Option.some.injEq] at hm
      subst hm
      exact ⟨rfl, by simp [ScriptWorld.wrap, h.next]⟩
    · have hlt : v < s.made.length := by
        by_contra hc
        rw [List.getElem?_eq_none (by simp; omega)] at hm
        cases hm
      rw [List.getElem?_append_left hlt] at hm
      have := h.behind v m hm hg
      have hv : (w.wrap (.inside k)).values v = w.values v := by
        simp only [ScriptWorld.wrap]
        exact Function.update_of_ne (by rw [h.next]; exact e) ..
      obtain ⟨g, k', n⟩ := m
      cases g
      · exact ⟨this.1, by rw [hv]; exact this.2⟩
      · obtain ⟨p, h1, h2⟩ := this
        exact ⟨p, by rw [hv]; exact h1, h2⟩
  own := by
    intro v v' p hv hv'
    simp only [ScriptWorld.wrap, Function.update_apply] at hv hv'
    split at hv
    · cases hv
    · split at hv'
      · cases hv'
      · exact h.own v v' p hv hv'
  bound := h.bound
  noleak := by
    intro p hp
    obtain ⟨v, hv⟩ := h.noleak p hp
    refine ⟨v, ?_⟩
    simp only [ScriptWorld.wrap]
    rw [Function.update_of_ne]
    · exact hv
    · rintro rfl
      rw [h.gone _ (.inl (Nat.le_of_eq h.next.symm))] at hv
      cases hv
  exist := h.exist
  reach := by
    intro v hv
    simp only [Function.update_apply] at hv
    simp only [List.length_append, List.length_cons, List.length_nil]
    split at hv
    · subst_vars
      refine ⟨by omega, ?_⟩
      by_contra hc
      exact absurd (h.later _ (by simpa using hc)) (Nat.lt_irrefl _)
    · have := h.reach v hv
      exact ⟨by omega, this.2⟩
  later := fun v hv => by
    have := h.later v hv
    simp only [List.length_append, List.length_cons, List.length_nil]
    omega

/-- A geometry is made. -/
theorem LifeInv.wrapGeom {w : ScriptWorld} {s : ScriptView} (h : LifeInv w s) (k : Nat) (n : Bool) :
    LifeInv ({ w with geoms := Function.update w.geoms w.nextGeom (some (if n then some k else none)),
                      nextGeom := w.nextGeom + 1 }.wrap (.geometry w.nextGeom))
      { s with made := s.made ++ [(true, k, n)], held := Function.update s.held s.made.length true } := by
  have fresh : w.geoms w.nextGeom = none := by
    by_contra hc
    exact absurd (h.bound _ hc) (Nat.lt_irrefl _)
  have other : ∀ v p, w.values v = some (.geometry p) → p ≠ w.nextGeom := by
    intro v p hv e
    subst e
    have hlt : v < s.made.length := by
      by_contra hc
      rw [h.gone v (.inl (by omega))] at hv
      cases hv
    have hg : s.gone v = false := by
      by_contra hc
      rw [h.gone v (.inr (by simpa using hc))] at hv
      cases hv
    have := h.behind v _ (List.getElem?_eq_getElem hlt) hg
    generalize s.made[v] = m at this
    obtain ⟨g, k', n'⟩ := m
    cases g
    · have := this.2
      rw [hv] at this
      cases this
    · obtain ⟨p, h1, h2⟩ := this
      rw [hv] at h1
      cases h1
      rw [fresh] at h2
      cases h2
  refine ⟨h.objects, h.current, by simp [ScriptWorld.wrap, h.next], by simp only [ScriptWorld.wrap, h.next, h.held],
    ?_, ?_, ?_, ?_, ?_, h.exist, ?_, ?_⟩
  · intro v hv
    simp only [ScriptWorld.wrap, Function.update_apply, h.next]
    rw [if_neg]
    · refine h.gone v ?_
      simp only [List.length_append, List.length_cons, List.length_nil] at hv
      rcases hv with hv | hv
      · left; omega
      · right; exact hv
    · rintro rfl
      simp only [List.length_append, List.length_cons, List.length_nil] at hv
      rcases hv with hv | hv
      · omega
      · exact absurd (h.later _ hv) (Nat.lt_irrefl _)
  · intro v m hm hg
    by_cases e : v = s.made.length
    · subst e
      rw [List.getElem?_append_right (Nat.le_refl _)] at hm
      simp only [Nat.sub_self, List.getElem?_cons_zero, Option.some.injEq] at hm
      subst hm
      exact ⟨w.nextGeom, by simp [ScriptWorld.wrap, h.next], by simp [ScriptWorld.wrap]⟩
    · have hlt : v < s.made.length := by
        by_contra hc
        rw [List.getElem?_eq_none (by simp; omega)] at hm
        cases hm
      rw [List.getElem?_append_left hlt] at hm
      have := h.behind v m hm hg
      obtain ⟨g, k', n'⟩ := m
      cases g
      · refine ⟨this.1, ?_⟩
        simp only [ScriptWorld.wrap]
        rw [Function.update_of_ne (by rw [h.next]; exact e)]
        exact this.2
      · obtain ⟨p, h1, h2⟩ := this
        refine ⟨p, ?_, ?_⟩
        · simp only [ScriptWorld.wrap]
          rw [Function.update_of_ne (by rw [h.next]; exact e)]
          exact h1
        · simp only [ScriptWorld.wrap]
          rw [Function.update_of_ne (other v p h1)]
          exact h2
  · intro v v' p hv hv'
    simp only [ScriptWorld.wrap, Function.update_apply] at hv hv'
    split at hv <;> split at hv'
    · subst_vars; rfl
    · cases hv
      exact absurd rfl (other _ _ hv')
    · cases hv'
      exact absurd rfl (other _ _ hv)
    · exact h.own v v' p hv hv'
  · intro p hp
    simp only [ScriptWorld.wrap] at hp ⊢
    by_cases e : p = w.nextGeom
    · omega
    · rw [Function.update_of_ne e] at hp
      have := h.bound p hp
      omega
  · intro p hp
    simp only [ScriptWorld.wrap] at hp ⊢
    by_cases e : p = w.nextGeom
    · subst e
      exact ⟨w.nextValue, by simp⟩
    · rw [Function.update_of_ne e] at hp
      obtain ⟨v, hv⟩ := h.noleak p hp
      refine ⟨v, ?_⟩
      rw [Function.update_of_ne]
      · exact hv
      · rintro rfl
        rw [h.gone _ (.inl (Nat.le_of_eq h.next.symm))] at hv
        cases hv
  · intro v hv
    simp only [Function.update_apply] at hv
    simp only [List.length_append, List.length_cons, List.length_nil]
    split at hv
    · subst_vars
      refine ⟨by omega, ?_⟩
      by_contra hc
      exact absurd (h.later _ (by simpa using hc)) (Nat.lt_irrefl _)
    · have := h.reach v hv
      exact ⟨by omega, this.2⟩
  · intro v hv
    have := h.later v hv
    simp only [List.length_append, List.length_cons, List.length_nil]
    omega

/-- The garbage collector finds an object. -/
theorem LifeInv.collect {w : ScriptWorld} {s : ScriptView} (h : LifeInv w s) {v : Nat} (hp : Permitted s (.collect v)) :
    ∃ w', w.step (.collect v) = some w' ∧ LifeInv w' (s.step (.collect v)) := by
  obtain ⟨hl, hh, hg⟩ := hp
  have hb := h.behind v _ (List.getElem?_eq_getElem hl) hg
  have hreach : ∀ x, s.held x = true → x < s.made.length ∧ Function.update s.gone v true x = false := by
    intro x hx
    have := h.reach x hx
    refine ⟨this.1, ?_⟩
    rw [Function.update_of_ne]
    · exact this.2
    · rintro rfl; rw [hh] at hx; cases hx
  have hlater : ∀ x, Function.update s.gone v true x = true → x < s.made.length := by
    intro x hx
    by_cases e : x = v
    · subst e; exact hl
    · rw [Function.update_of_ne e] at hx; exact h.later x hx
  have hgone : ∀ x, (s.made.length ≤ x ∨ Function.update s.gone v true x = true) →
      Function.update w.values v none x = none := by
    intro x hx
    by_cases e : x = v
    · subst e; simp
    · rw [Function.update_of_ne e] at hx ⊢
      exact h.gone x hx
  have hown : ∀ x x' p, Function.update w.values v none x = some (.geometry p) →
      Function.update w.values v none x' = some (.geometry p) → x = x' := by
    intro x x' p hx hx'
    simp only [Function.update_apply] at hx hx'
    split at hx
    · cases hx
    · split at hx'
      · cases hx'
      · exact h.own x x' p hx hx'
  have hne : ∀ x, Function.update s.gone v true x = false → x ≠ v ∧ s.gone x = false := by
    intro x hx
    by_cases e : x = v
    · subst e; simp at hx
    · exact ⟨e, by rw [Function.update_of_ne e] at hx; exact hx⟩
  generalize s.made[v] = m at hb
  obtain ⟨g, k, n⟩ := m
  cases g
  · have hv := hb.2
    refine ⟨{ w with values := Function.update w.values v none }, by simp only [ScriptWorld.step, hv], h.objects,
      h.current, h.next, h.held, hgone, ?_, hown, h.bound, ?_, h.exist, hreach, hlater⟩
    · intro x m hm hx
      obtain ⟨e, hx⟩ := hne x hx
      have := h.behind x m hm hx
      obtain ⟨g, k', n'⟩ := m
      cases g
      · exact ⟨this.1, by simp only [Function.update_of_ne e]; exact this.2⟩
      · obtain ⟨p, h1, h2⟩ := this
        exact ⟨p, by simp only [Function.update_of_ne e]; exact h1, h2⟩
    · intro p hp
      obtain ⟨x, hx⟩ := h.noleak p hp
      refine ⟨x, ?_⟩
      simp only
      rw [Function.update_of_ne]
      · exact hx
      · rintro rfl; rw [hv] at hx; cases hx
  · obtain ⟨q, hv, hq⟩ := hb
    refine ⟨{ w with values := Function.update w.values v none, geoms := Function.update w.geoms q none },
      by simp [ScriptWorld.step, hv, hq], h.objects, h.current, h.next, h.held, hgone, ?_, hown, ?_, ?_, h.exist, hreach,
      hlater⟩
    · intro x m hm hx
      obtain ⟨e, hx⟩ := hne x hx
      have := h.behind x m hm hx
      obtain ⟨g, k', n'⟩ := m
      cases g
      · exact ⟨this.1, by simp only [Function.update_of_ne e]; exact this.2⟩
      · obtain ⟨p, h1, h2⟩ := this
        refine ⟨p, by simp only [Function.update_of_ne e]; exact h1, ?_⟩
        simp only
        rw [Function.update_of_ne]
        · exact h2
        · rintro rfl
          exact e (h.own x v p h1 hv)
    · intro p hp
      simp only [Function.update_apply] at hp
      split at hp
      · exact absurd rfl hp
      · exact h.bound p hp
    · intro p hp
      simp only [Function.update_apply] at hp
      split at hp
      · exact absurd rfl hp
      · rename_i e
        obtain ⟨x, hx⟩ := h.noleak p hp
        refine ⟨x, ?_⟩
        simp only
        rw [Function.update_of_ne]
        · exact hx
        · rintro rfl; rw [hv] at hx; cases hx; exact e rfl

/-- One event. -/
theorem LifeInv.step {w : ScriptWorld} {s : ScriptView} (h : LifeInv w s) (op : ScriptOp) (hp : Permitted s op) :
    ∃ w', w.step op = some w' ∧ LifeInv w' (s.step op) := by
  cases op with
  | callback k =>
    have hk : w.objects k = true := by rw [h.objects]; exact hp.2
    have hi := h.wrapInside k
    refine ⟨{ w.wrap (.inside k) with current := some k }, by simp only [ScriptWorld.step, hk, if_true], hi.objects, rfl,
      hi.next, hi.held, hi.gone, hi.behind,
      hi.own, hi.bound, hi.noleak, ?_, hi.reach, hi.later⟩
    intro k' e
    simp only [ScriptView.step, Option.some.injEq] at e
    subst e
    exact hp.2
  | returned =>
    exact ⟨_, rfl, h.objects, rfl, h.next, h.held, h.gone, h.behind, h.own, h.bound, h.noleak,
      fun k e => by simp [ScriptView.step] at e, h.reach, h.later⟩
  | release k =>
    refine ⟨_, rfl, by simp only [ScriptView.step, h.objects], h.current, h.next, h.held, h.gone, h.behind, h.own,
      h.bound, h.noleak, ?_, h.reach, h.later⟩
    intro k' e
    have hne : k' ≠ k := by rintro rfl; exact hp e
    simp only [ScriptView.step]
    rw [Function.update_of_ne hne]
    exact h.exist k' e
  | part v =>
    obtain ⟨hh, k, hm, hc⟩ := hp
    have hv := (h.behind v _ hm (h.reach v hh).2).2
    have hk : w.objects k = true := by rw [h.objects]; exact h.exist k hc
    refine ⟨w.wrap (.inside k), by simp [ScriptWorld.step, hv, hk], ?_⟩
    have := h.wrapInside k
    simp only [ScriptView.step, hm, Option.getD_some]
    exact this
  | geom v refers =>
    obtain ⟨hh, k, hm, hc⟩ := hp
    have hv := (h.behind v _ hm (h.reach v hh).2).2
    have hk : w.objects k = true := by rw [h.objects]; exact h.exist k hc
    refine ⟨_, by simp only [ScriptWorld.step, hv, hk, if_true]; rfl, ?_⟩
    have := h.wrapGeom k refers
    simp only [ScriptView.step, hm, Option.getD_some]
    exact this
  | read v =>
    obtain ⟨hh, g, k, n, hm, hc⟩ := hp
    have hb := h.behind v _ hm (h.reach v hh).2
    refine ⟨w, ?_, h⟩
    cases g
    · obtain ⟨hn, hv⟩ := hb
      have hk : w.objects k = true := by rw [h.objects]; exact h.exist k (hc hn)
      simp [ScriptWorld.step, hv, ScriptWorld.usable, hk]
    · obtain ⟨p, hv, hg⟩ := hb
      cases n
      · simp only [Bool.false_eq_true, if_false] at hg
        simp [ScriptWorld.step, hv, ScriptWorld.usable, hg]
      · have hk : w.objects k = true := by rw [h.objects]; exact h.exist k (hc rfl)
        simp only [if_true] at hg
        simp [ScriptWorld.step, hv, ScriptWorld.usable, hg, hk]
  | drop v =>
    refine ⟨_, rfl, h.objects, h.current, h.next, by simp only [ScriptView.step, h.held], h.gone, h.behind, h.own,
      h.bound, h.noleak, h.exist, ?_, h.later⟩
    intro x hx
    simp only [ScriptView.step, Function.update_apply] at hx
    split at hx
    · cases hx
    · exact h.reach x hx
  | collect v => exact h.collect hp

theorem LifeInv.run {w : ScriptWorld} {s : ScriptView} (h : LifeInv w s) (ops : List ScriptOp)
    (hp : AllPermitted s ops) : ∃ w', w.run ops = some w' ∧ LifeInv w' (s.after ops) := by
  induction ops generalizing w s with
  | nil => exact ⟨w, rfl, h⟩
  | cons op ops ih =>
    obtain ⟨w1, e1, h1⟩ := h.step op hp.1
    obtain ⟨w2, e2, h2⟩ := ih h1 hp.2
    exact ⟨w2, by simp only [ScriptWorld.run, e1, e2], h2⟩

/-- C97: in every history by the rules (`Permitted`: callbacks, any time at which other handlers forget objects or the
garbage collector finds something the script cannot reach; the script does not use what it has from earlier callbacks,
except points and null geometries) nothing is used that does not exist any more, and no geometry is deleted twice
(there is always a result).  Every geometry belongs to one Javascript object, and exists as long as that one:
all that the script can reach exist.
(Partial: without the rule for the script this is false, see `script_keeps_object` and `script_keeps_geometry`.) -/
theorem script_objects_partial (objs : Nat → Bool) (ops : List ScriptOp) (h : AllPermitted (ScriptView.init objs) ops) :
    ∃ w, (ScriptWorld.init objs).run ops = some w ∧
      (∀ p, w.geoms p ≠ none ↔ ∃ v, w.values v = some (.geometry p)) ∧
      (∀ v v' p, w.values v = some (.geometry p) → w.values v' = some (.geometry p) → v = v') ∧
      (∀ v, w.values v ≠ none ↔ v < ((ScriptView.init objs).after ops).made.length ∧
        ((ScriptView.init objs).after ops).gone v = false) ∧
      ∀ v, ((ScriptView.init objs).after ops).held v = true → w.values v ≠ none := by
  obtain ⟨w, e, hi⟩ := (lifeInv_init objs).run ops h
  have hval : ∀ v, w.values v ≠ none ↔ v < ((ScriptView.init objs).after ops).made.length ∧
      ((ScriptView.init objs).after ops).gone v = false := by
    intro v
    constructor
    · intro hv
      constructor
      · by_contra hc
        exact hv (hi.gone v (.inl (by omega)))
      · by_contra hc
        exact hv (hi.gone v (.inr (by simpa using hc)))
    · rintro ⟨h1, h2⟩
      have := hi.behind v _ (List.getElem?_eq_getElem h1) h2
      generalize ((ScriptView.init objs).after ops).made[v] = m at this
      obtain ⟨g, k, n⟩ := m
      cases g
      · rw [this.2]; simp
      · obtain ⟨p, hp, -⟩ := this
        rw [hp]; simp
  refine ⟨w, e, fun p => ⟨hi.noleak p, ?_⟩, hi.own, hval, fun v hv => (hval v).2 (hi.reach v hv)⟩
  rintro ⟨v, hv⟩
  obtain ⟨h1, h2⟩ := (hval v).1 (by rw [hv]; simp)
  have := hi.behind v _ (List.getElem?_eq_getElem h1) h2
  generalize ((ScriptView.init objs).after ops).made[v] = m at this
  obtain ⟨g, k, n⟩ := m
  cases g
  · have := this.2
    rw [hv] at this
    cases this
  · obtain ⟨p', hp, hg⟩ := this
    rw [hv] at hp
    cases hp
    rw [hg]; simp

/-- A way with its tags and geometry, a garbage collection during the callback, then a node whose point is used after
the node is gone. -/
example : AllPermitted (ScriptView.init fun _ => true)
    [.callback 4, .part 0, .geom 0 true, .read 1, .read 2, .drop 2, .collect 2, .read 0, .returned, .release 4,
     .callback 5, .geom 3 false, .returned, .release 5, .drop 0, .collect 0, .read 4, .drop 4, .collect 4] := by
  simp [AllPermitted, Permitted, ScriptView.step, ScriptView.init, Function.update_apply]

/-- What is missing: the rule for scripts is nowhere enforced.  A script that keeps `this` and uses it later uses memory
that is not there any more ... -/
theorem script_keeps_object (objs : Nat → Bool) (k : Nat) (hk : objs k = true) :
    (ScriptWorld.init objs).run [.callback k, .returned, .release k, .read 0] = none := by
  simp [ScriptWorld.run, ScriptWorld.step, ScriptWorld.init, ScriptWorld.wrap, ScriptWorld.usable, hk]

/-- ... and so does one that keeps the geometry of a way or an area; the geometry itself still exists, but refers to
what is gone. -/
theorem script_keeps_geometry (objs : Nat → Bool) (k : Nat) (hk : objs k = true) :
    (ScriptWorld.init objs).run [.callback k, .geom 0 true, .returned, .release k, .read 1] = none ∧
    ((ScriptWorld.init objs).run [.callback k, .geom 0 false, .returned, .release k, .read 1]).isSome = true := by
  simp [ScriptWorld.run, ScriptWorld.step, ScriptWorld.init, ScriptWorld.wrap, ScriptWorld.usable, hk]

end Osmium
