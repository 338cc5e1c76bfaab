import Verif.Input.Lemmas
import Verif.Input.Spec
/-
C21 and C22, as far as they do not depend on the file format.
-/
namespace Osmium
open Spec

theorem runs_ne_nil (os : List OsmObj) : ∀ r ∈ runs os, r ≠ [] := by
  induction os with
  | nil => simp [runs]
  | cons o os ih =>
    unfold runs
    split
    · rename_i x r rs h
      rw [h] at ih
      split
      · intro y hy
        simp only [List.mem_cons] at hy
        rcases hy with rfl | hy
        · simp
        · exact ih y (by simp [hy])
      · intro y hy
        simp only [List.mem_cons] at hy
        rcases hy with rfl | rfl | hy
        · simp
        · simp
        · exact ih y (by simp [hy])
    · simp

/-- `runs` is what its name says: together the runs are the whole list, ... -/
theorem runs_flatten (os : List OsmObj) : (runs os).flatten = os := by
  induction os with
  | nil => rfl
  | cons o os ih =>
    have hne := runs_ne_nil os
    unfold runs
    split
    · rename_i x r rs h
      rw [h] at ih
      split <;> rw [← ih] <;> rfl
    · rename_i h
      have : runs os = [] := by
        cases hr : runs os with
        | nil => rfl
        | cons y ys =>
          cases y with
          | nil => exact absurd rfl (hne [] (by rw [hr]; simp))
          | cons z zs => exact absurd hr (h z zs ys)
      rw [this] at ih
      rw [← ih]; rfl

/-- ... all objects of a run have the same type, ... -/
theorem runs_type (os : List OsmObj) : ∀ r ∈ runs os, ∃ t, ∀ o ∈ r, o.type = t := by
  induction os with
  | nil => simp [runs]
  | cons o os ih =>
    unfold runs
    split
    · rename_i x r rs h
      rw [h] at ih
      split
      · rename_i ht
        intro y hy
        simp only [List.mem_cons] at hy
        rcases hy with rfl | hy
        · obtain ⟨t, h'⟩ := ih (x :: r) (by simp)
          refine ⟨t, ?_⟩
          intro z hz
          simp only [List.mem_cons] at hz
          rcases hz with rfl | hz
          · rw [ht]; exact h' x (by simp)
          · exact h' z (by simpa using hz)
        · exact ih y (by simp [hy])
      · intro y hy
        simp only [List.mem_cons] at hy
        rcases hy with rfl | hy
        · exact ⟨o.type, by simp⟩
        · exact ih y (by simpa using hy)
    · intro y hy
      simp only [List.mem_singleton] at hy
      subst hy
      exact ⟨o.type, by simp⟩

/-- ... and neighbouring runs have different types. -/
theorem runs_maximal (os : List OsmObj) :
    (runs os).IsChain (fun a b => ∀ x ∈ a, ∀ y ∈ b, x.type ≠ y.type) := by
  induction os with
  | nil => simp [runs]
  | cons o os ih =>
    have hty := runs_type os
    unfold runs
    split
    · rename_i z r rs hr
      rw [hr] at ih hty
      obtain ⟨t, h'⟩ := hty (z :: r) (by simp)
      split
      · rename_i ht
        cases rs with
        | nil => simp
        | cons b rs =>
          rw [List.isChain_cons_cons] at ih ⊢
          refine ⟨?_, ih.2⟩
          intro x hx y hy
          simp only [List.mem_cons] at hx
          rcases hx with rfl | hx
          · rw [ht]; exact ih.1 z (by simp) y hy
          · exact ih.1 x (by simpa using hx) y hy
      · rename_i ht
        rw [List.isChain_cons_cons]
        refine ⟨?_, ih⟩
        intro x hx y hy
        simp only [List.mem_singleton] at hx
        subst hx
        rw [h' y hy, ← h' z (by simp)]
        exact ht
    · simp

/-! ### C21: the calls for a sequence of objects -/

/-- All calls made by a reader that reads the objects `os` and then comes to the end of the file
(`call_after_and_before_on_handler(UNKNOWN)`, `call_final_on_handler()`). -/
def allCalls (m : Meta) (os : List OsmObj) : List Cb :=
  seqCalls m .unknown os ++ afterAndBefore m (lastType .unknown os) .unknown ++ [.final]

theorem afterAndBefore_ne (m : Meta) (a b : ObjType) (h : b ≠ a) :
    afterAndBefore m a b = afterCalls m a ++ beforeCalls b := by
  simp [afterAndBefore, h]

theorem runs_cons_ne (o : OsmObj) (os : List OsmObj) : ∃ r rs, runs (o :: os) = (o :: r) :: rs := by
  unfold runs
  split
  · split
    · exact ⟨_, _, rfl⟩
    · exact ⟨_, _, rfl⟩
  · exact ⟨_, _, rfl⟩

theorem beforeCalls_type (o : OsmObj) : beforeCalls o.type = [.before o.type] := by
  cases o <;> rfl
theorem afterCalls_type (m : Meta) (o : OsmObj) : afterCalls m o.type = [.after o.type] := by
  cases o <;> rfl
theorem type_ne_unknown (o : OsmObj) : o.type ≠ .unknown := by
  cases o <;> simp [OsmObj.type]

/-- The calls after `before` for the first run. -/
theorem calls_runs (m : Meta) (o : OsmObj) (os : List OsmObj) :
    .before o.type :: .obj o :: (seqCalls m o.type os ++ afterAndBefore m (lastType o.type os) .unknown) =
      (runs (o :: os)).flatMap runCalls := by
  induction os generalizing o with
  | nil =>
    have : afterAndBefore m o.type .unknown = [.after o.type] := by
      rw [afterAndBefore_ne _ _ _ (Ne.symm (type_ne_unknown o)), afterCalls_type]; rfl
    simp [seqCalls, lastType, this, runs, runCalls]
  | cons p os ih =>
    have ih := ih p
    obtain ⟨r, rs, hr⟩ := runs_cons_ne p os
    rw [hr] at ih
    rw [lastType_cons]
    have e : runs (o :: p :: os) = if o.type = p.type then (o :: p :: r) :: rs
        else [o] :: (p :: r) :: rs := by
      rw [runs, hr]
    rw [e]
    by_cases ht : o.type = p.type
    · rw [if_pos ht]
      simp only [seqCalls, ht, afterAndBefore_self, List.nil_append]
      simp only [List.flatMap_cons, runCalls, List.map_cons, ht, List.cons_append,
        List.cons.injEq, true_and] at ih ⊢
      exact ih
    · rw [if_neg ht]
      simp only [seqCalls]
      rw [afterAndBefore_ne _ _ _ (Ne.symm ht), afterCalls_type, beforeCalls_type]
      rw [List.flatMap_cons, ← ih]
      simp [runCalls]

/-- **C21**: for a file with at least one object the calls are: `init`; for each maximal run of
objects of one type `before`, the objects of the run in file order, `after`; `final`. -/
theorem allCalls_protocol (m : Meta) (os : List OsmObj) (h : os ≠ []) :
    allCalls m os = protocol m os := by
  cases os with
  | nil => exact absurd rfl h
  | cons o os =>
    have := calls_runs m o os
    unfold allCalls protocol
    rw [← this, lastType_cons]
    simp only [seqCalls]
    rw [afterAndBefore_ne _ _ _ (type_ne_unknown o), beforeCalls_type]
    simp [afterCalls]

/-- **C21** (negation for the empty file): if the file contains no objects, `init` is not called at
all; `final` is. -/
theorem allCalls_empty (m : Meta) : allCalls m [] = [.final] := by
  simp [allCalls, seqCalls, lastType, afterAndBefore]

/-- The protocol as a list and the observer agree. -/
theorem protocol_follows (m : Meta) (os : List OsmObj) : Follows (protocol m os) := by
  unfold Follows protocol
  rw [List.cons_append, List.foldl_cons, List.foldl_append]
  have key : ∀ (rs : List (List OsmObj)) (l : Option ObjType),
      (∀ r ∈ rs, r ≠ []) → (∀ r ∈ rs, ∃ t, ∀ o ∈ r, o.type = t) →
      rs.IsChain (fun a b => ∀ x ∈ a, ∀ y ∈ b, x.type ≠ y.type) →
      (∀ r ∈ rs.head?, ∀ x ∈ r, l ≠ some x.type) →
      ∃ l', (rs.flatMap runCalls).foldl PState.step (.outside l) = .outside l' := by
    intro rs
    induction rs with
    | nil => intro l _ _ _ _; exact ⟨l, rfl⟩
    | cons r rs ih =>
      intro l h1 h2 h3 h4
      cases r with
      | nil => exact absurd rfl (h1 [] (by simp))
      | cons o r =>
        obtain ⟨t, ht⟩ := h2 (o :: r) (by simp)
        have hin : ∀ (s : List OsmObj), (∀ x ∈ s, x.type = t) →
            (s.map Cb.obj).foldl PState.step (.inside t) = .inside t := by
          intro s hs
          induction s with
          | nil => rfl
          | cons x s ihs =>
            rw [List.map_cons, List.foldl_cons]
            have : PState.step (.inside t) (.obj x) = .inside t := by
              simp [PState.step, hs x (by simp)]
            rw [this]; exact ihs (fun y hy => hs y (by simp [hy]))
        have ho := ht o (by simp)
        have hrun : (runCalls (o :: r)).foldl PState.step (.outside l) = .outside (some t) := by
          have hb : PState.step (.outside l) (.before o.type) = .inside t := by
            have := h4 (o :: r) (by simp) o (by simp)
            rw [ho] at this
            simp [PState.step, this, ho, type_ne_unknown]
          simp only [runCalls]
          rw [List.cons_append, List.foldl_cons, hb, List.foldl_append, hin _ ht]
          simp [PState.step, ho]
        rw [List.flatMap_cons, List.foldl_append, hrun]
        refine ih (some t) (fun x hx => h1 x (by simp [hx])) (fun x hx => h2 x (by simp [hx])) ?_ ?_
        · cases rs with
          | nil => simp
          | cons b rs => exact (List.isChain_cons_cons.1 h3).2
        · intro b hb x hx
          cases rs with
          | nil => simp at hb
          | cons b' rs =>
            simp only [List.head?_cons, Option.mem_def, Option.some.injEq] at hb
            subst hb
            have := (List.isChain_cons_cons.1 h3).1 o (by simp) x hx
            rw [ho] at this
            intro e; exact this (Option.some.inj e)
  obtain ⟨l', hl⟩ := key (runs os) none (runs_ne_nil os) (runs_type os) (runs_maximal os)
    (by intro _ _ _ _; simp)
  have : PState.step .fresh (.init m) = .outside none := rfl
  rw [this, hl]
  rfl

/-! ### C22: StopReading -/

theorem deliver_spec (h : Stops) (calls done : List Cb) :
    (deliver h done calls = (done ++ calls, false) ∧ ∀ k, k < calls.length → h (done ++ calls.take (k + 1)) = false) ∨
    (∃ k, k < calls.length ∧ h (done ++ calls.take (k + 1)) = true ∧
      (∀ j, j < k → h (done ++ calls.take (j + 1)) = false) ∧
      deliver h done calls = (done ++ calls.take (k + 1), true)) := by
  induction calls generalizing done with
  | nil => left; simp [deliver]
  | cons c cs ih =>
    by_cases hc : h (done ++ [c]) = true
    · right
      exact ⟨0, by simp, by simpa using hc, by simp, by simp [deliver, hc]⟩
    · have hcf : h (done ++ [c]) = false := by simpa using hc
      rcases ih (done ++ [c]) with ⟨e, hk⟩ | ⟨k, hk, ht, hj, e⟩
      · left
        refine ⟨by simp [deliver, hcf, e], ?_⟩
        intro k hkl
        cases k with
        | zero => simpa using hcf
        | succ k => simpa using hk k (by simpa using hkl)
      · right
        refine ⟨k + 1, by simpa using hk, by simpa using ht, ?_, by simp [deliver, hcf, e]⟩
        intro j hjl
        cases j with
        | zero => simpa using hcf
        | succ j => simpa using hj j (by omega)

/-- **C22**: let `ev` be what a reader would call before the end of the input, and `endCalls` what
it calls at the end.  If the handler throws `StopReading` in one of these calls, namely in the one
with number `k` and in none before, then exactly the calls up to number `k` are made, then `final`
is called, and `parse` returns normally. -/
theorem stop_reading (h : Stops) (ev : Events) (endCalls : List Cb)
    (k : Nat) (hk : k < (ev.calls ++ if ev.fail = none then endCalls else []).length)
    (hstop : h ((ev.calls ++ if ev.fail = none then endCalls else []).take (k + 1)) = true)
    (hgo : ∀ j, j < k → h ((ev.calls ++ if ev.fail = none then endCalls else []).take (j + 1)) = false) :
    parseFrame h ev endCalls =
      ((ev.calls ++ if ev.fail = none then endCalls else []).take (k + 1) ++ [.final], .returned) := by
  unfold parseFrame
  rcases deliver_spec h ev.calls [] with ⟨e, h1⟩ | ⟨k', hk', ht, hj, e⟩
  · rw [e]
    simp only [List.nil_append] at h1 ⊢
    have hkl : ev.calls.length ≤ k := by
      by_contra hlt
      have := h1 k (by omega)
      rw [List.take_append_of_le_length (by omega)] at hstop
      rw [this] at hstop; cases hstop
    cases hf : ev.fail with
    | some x => simp [hf] at hk; omega
    | none =>
      simp only [hf, if_true] at hk hstop hgo ⊢
      have hsplit : ∀ j, ev.calls.length ≤ j →
          (ev.calls ++ endCalls).take (j + 1) = ev.calls ++ endCalls.take (j - ev.calls.length + 1) := by
        intro j hj
        rw [List.take_append, List.take_of_length_le (by omega)]
        congr 2; omega
      rw [List.length_append] at hk
      rcases deliver_spec h endCalls ev.calls with ⟨e2, h2⟩ | ⟨k2, hk2, ht2, hj2, e2⟩
      · have := h2 (k - ev.calls.length) (by omega)
        rw [hsplit k hkl, this] at hstop; cases hstop
      · rw [e2]
        have : k2 = k - ev.calls.length := by
          rcases Nat.lt_trichotomy k2 (k - ev.calls.length) with hlt | he | hgt
          · have := hgo (k2 + ev.calls.length) (by omega)
            rw [hsplit _ (by omega), Nat.add_sub_cancel] at this
            rw [this] at ht2; cases ht2
          · exact he
          · have := hj2 (k - ev.calls.length) hgt
            rw [hsplit k hkl, this] at hstop; cases hstop
        subst this
        rw [hsplit k hkl]
  · rw [e]
    simp only [List.nil_append] at ht hj ⊢
    have : k' = k := by
      rcases Nat.lt_trichotomy k' k with hlt | he | hgt
      · have := hgo k' hlt
        rw [List.take_append_of_le_length (by omega)] at this
        rw [this] at ht; cases ht
      · exact he
      · have := hj k hgt
        rw [List.take_append_of_le_length (by omega)] at hstop
        rw [this] at hstop; cases hstop
    subst this
    rw [List.take_append_of_le_length (by omega)]

/-- A handler that never throws sees all calls. -/
theorem no_stop (ev : Events) (endCalls : List Cb) (h : Stops) (hh : ∀ l, h l = false) :
    parseFrame h ev endCalls =
      match ev.fail with
      | some e => (ev.calls, .threw e)
      | none => (ev.calls ++ endCalls ++ [.final], .returned) := by
  have hd : ∀ calls done, deliver h done calls = (done ++ calls, false) := by
    intro calls
    induction calls with
    | nil => intro done; simp [deliver]
    | cons c cs ih => intro done; simp [deliver, hh, ih]
  unfold parseFrame
  rw [hd]
  cases ev.fail with
  | some e => simp
  | none => simp [hd]

/-- Without a failure of the reader itself, `parse` returns normally, and `final` is the last call,
whatever the handler does. -/
theorem parse_returns_final (h : Stops) (ev : Events) (endCalls : List Cb) (hf : ev.fail = none) :
    ∃ calls, parseFrame h ev endCalls = (calls ++ [.final], .returned) ∧
      calls <+: ev.calls ++ endCalls := by
  unfold parseFrame
  rcases deliver_spec h ev.calls [] with ⟨e, _⟩ | ⟨k, hk, _, _, e⟩
  · rw [e, hf]
    simp only [List.nil_append]
    rcases deliver_spec h endCalls ev.calls with ⟨e2, _⟩ | ⟨k2, hk2, _, _, e2⟩
    · rw [e2]; exact ⟨_, rfl, List.prefix_rfl⟩
    · rw [e2]
      exact ⟨_, rfl, List.prefix_append_right_inj _ |>.2 (List.take_prefix _ _)⟩
  · rw [e]
    exact ⟨_, rfl, (List.take_prefix _ _).trans (List.prefix_append _ _)⟩

/-! ### Concrete cases -/

example :
    let a : OsmObj := .node { Node.new with obj := { Obj.new with id := 1 } }
    let b : OsmObj := .node { Node.new with obj := { Obj.new with id := 2 } }
    let c : OsmObj := .way { Way.new with obj := { Obj.new with id := 3 } }
    let m := Meta.new false
    allCalls m [a, b, c, a] =
      [.init m, .before .node, .obj a, .obj b, .after .node, .before .way, .obj c, .after .way,
       .before .node, .obj a, .after .node, .final] := by decide

/-- A handler that stops at the second node (third call). -/
example :
    let a : OsmObj := .node { Node.new with obj := { Obj.new with id := 1 } }
    let b : OsmObj := .node { Node.new with obj := { Obj.new with id := 2 } }
    let m := Meta.new false
    parseFrame (fun l => l.length == 4) ⟨seqCalls m .unknown [a, b, a], none⟩ (afterAndBefore m .node .unknown) =
      ([.init m, .before .node, .obj a, .obj b, .final], .returned) := by decide

end Osmium
