import Verif.Input.Props
import Verif.Pbf.Spec

/-
C33-C35: the handlers for history files, handler/endtime.hpp and handler/range_from_history.hpp.

Both pass calls on to another handler, which is taken not to throw; they are modelled by the calls
they make on it.
-/
namespace Osmium

/-- The object with the end time set, osm/object.hpp `endtime(time_t)`. (lines 156-159) -/
def OsmObj.setEndtime : OsmObj → Int → OsmObj
  | .node n, t => .node { n with obj := { n.obj with endtime := t } }
  | .way w, t => .way { w with obj := { w.obj with endtime := t } }
  | .relation r, t => .relation { r with obj := { r.obj with endtime := t } }

/-- handler/endtime.hpp 121-123: the objects kept back. -/
structure EndTimeState where
  node : Option OsmObj
  way : Option OsmObj
  relation : Option OsmObj

/-- handler/endtime.hpp 41-47 constructor. -/
def EndTimeState.new : EndTimeState := ⟨none, none, none⟩

/-- handler/endtime.hpp 57-64 `node` (75-82 `way`, 93-100 `relation` likewise): the calls made,
given the object kept back. -/
def endTimeObj (last : Option OsmObj) (o : OsmObj) : List Cb :=
  match last with
  | some l =>
    if o.obj.id = l.obj.id then [.obj (l.setEndtime o.obj.timestamp)] else [.obj l]
  | none => []

/-- handler/endtime.hpp 66-72 `after_nodes` (84-90, 102-108 likewise). -/
def endTimeAfter (last : Option OsmObj) (t : ObjType) : List Cb :=
  match last with
  | some l => [.obj l, .after t]
  | none => [.after t]

/-- handler/endtime.hpp 36-131: one callback. -/
def endTimeStep (s : EndTimeState) : Cb → EndTimeState × List Cb
  | .obj (.node n) => ({ s with node := some (.node n) }, endTimeObj s.node (.node n))
  | .obj (.way w) => ({ s with way := some (.way w) }, endTimeObj s.way (.way w))
  | .obj (.relation r) =>
    ({ s with relation := some (.relation r) }, endTimeObj s.relation (.relation r))
  | .after .node => ({ s with node := none }, endTimeAfter s.node .node)
  | .after .way => ({ s with way := none }, endTimeAfter s.way .way)
  | .after .relation => ({ s with relation := none }, endTimeAfter s.relation .relation)
  | c => (s, [c])

/-- All calls made on the next handler. (handler/endtime.hpp 49-125, for all callbacks) -/
def endTimeRun : EndTimeState → List Cb → List Cb
  | _, [] => []
  | s, c :: cs => (endTimeStep s c).2 ++ endTimeRun (endTimeStep s c).1 cs

/-- handler/range_from_history.hpp 49-65: the condition for forwarding an object. -/
def inRange (lo hi : Int) (o : Obj) : Bool :=
  (o.endtime == 0 || decide (o.endtime ≥ lo)) && decide (o.timestamp ≤ hi)

/-- handler/range_from_history.hpp 38-72: one callback; all others are forwarded. -/
def rangeStep (lo hi : Int) : Cb → List Cb
  | .obj o => if inRange lo hi o.obj then [.obj o] else []
  | c => [c]

/-- All calls made on the next handler. (handler/range_from_history.hpp 49-70, for all callbacks) -/
def rangeRun (lo hi : Int) (calls : List Cb) : List Cb := calls.flatMap (rangeStep lo hi)

namespace Spec

/-- Two versions of the same object. (specification, no counterpart in /repo) -/
def SameObject (a b : OsmObj) : Prop := a.type = b.type ∧ a.obj.id = b.obj.id

instance (a b : OsmObj) : Decidable (SameObject a b) := by unfold SameObject; infer_instance

/-- The history with end times: each version directly followed by another version of the same
object ends when that one begins. (specification, no counterpart in /repo) -/
def endTimes : List OsmObj → List OsmObj
  | o :: o' :: os =>
    (if SameObject o o' then o.setEndtime o'.obj.timestamp else o) :: endTimes (o' :: os)
  | os => os

/-- The version is valid at time `t`: from its timestamp on, and until its end time (if it has
one), both included. (specification, no counterpart in /repo) -/
def ValidAt (o : Obj) (t : Int) : Prop := o.timestamp ≤ t ∧ (o.endtime ≠ 0 → t ≤ o.endtime)

/-- A history file: all versions of an object are together, in the order of increasing
timestamps. (specification, no counterpart in /repo) -/
structure History (os : List OsmObj) : Prop where
  together : ∀ (i j k : Nat) (a b c : OsmObj), i < j → j < k → os[i]? = some a → os[j]? = some b →
    os[k]? = some c → SameObject a c → SameObject a b
  increasing : os.Pairwise fun a b => SameObject a b → a.obj.timestamp < b.obj.timestamp
  positive : ∀ o ∈ os, 0 < o.obj.timestamp
  unended : ∀ o ∈ os, o.obj.endtime = 0

end Spec

open Spec

/-! ### C33 -/

@[simp] theorem setEndtime_type (o : OsmObj) (t : Int) : (o.setEndtime t).type = o.type := by
  cases o <;> rfl
@[simp] theorem setEndtime_id (o : OsmObj) (t : Int) : (o.setEndtime t).obj.id = o.obj.id := by
  cases o <;> rfl
@[simp] theorem setEndtime_timestamp (o : OsmObj) (t : Int) :
    (o.setEndtime t).obj.timestamp = o.obj.timestamp := by cases o <;> rfl
@[simp] theorem setEndtime_endtime (o : OsmObj) (t : Int) :
    (o.setEndtime t).obj.endtime = t := by cases o <;> rfl

theorem endTimeRun_append (s : EndTimeState) (a b : List Cb) (s' : EndTimeState)
    (h : a.foldl (fun s c => (endTimeStep s c).1) s = s') :
    endTimeRun s (a ++ b) = endTimeRun s a ++ endTimeRun s' b := by
  induction a generalizing s with
  | nil => simp only [List.foldl_nil] at h; subst h; rfl
  | cons c a ih =>
    simp only [List.cons_append, endTimeRun, List.append_assoc]
    rw [ih _ h]

/-- The slot for a type. (helper for statements and proofs, no counterpart in /repo) -/
def EndTimeState.with_ (t : ObjType) (o : OsmObj) : EndTimeState :=
  match t with
  | .node => { EndTimeState.new with node := some o }
  | .way => { EndTimeState.new with way := some o }
  | .relation => { EndTimeState.new with relation := some o }
  | _ => EndTimeState.new

theorem endTimes_cons_head (o : OsmObj) (os : List OsmObj) :
    ∃ t, endTimes (o :: os) = o :: os ∨ ∃ l, endTimes (o :: os) = (o.setEndtime t) :: l := by
  cases os with
  | nil => exact ⟨0, .inl rfl⟩
  | cons o' os =>
    by_cases h : SameObject o o'
    · exact ⟨o'.obj.timestamp, .inr ⟨endTimes (o' :: os), by simp only [endTimes, h, if_true]⟩⟩
    · exact ⟨o.obj.endtime, .inr ⟨endTimes (o' :: os), by
        simp only [endTimes, h, if_false]; cases o <;> rfl⟩⟩

/-- Within a run. -/
theorem endTime_inside (t : ObjType) (o : OsmObj) (os : List OsmObj) (ho : o.type = t)
    (hs : ∀ x ∈ os, x.type = t) :
    endTimeRun (EndTimeState.with_ t o) (os.map Cb.obj ++ [.after t]) =
      (endTimes (o :: os)).map Cb.obj ++ [.after t] ∧
    (os.map Cb.obj ++ [Cb.after t]).foldl (fun s c => (endTimeStep s c).1)
      (EndTimeState.with_ t o) = EndTimeState.new := by
  induction os generalizing o with
  | nil =>
    subst ho
    cases o <;> exact ⟨rfl, rfl⟩
  | cons x os ih =>
    have hx : x.type = t := hs x (by simp)
    obtain ⟨ih1, ih2⟩ := ih x hx (fun y hy => hs y (by simp [hy]))
    have hstep : endTimeStep (EndTimeState.with_ t o) (.obj x) =
        (EndTimeState.with_ t x, endTimeObj (some o) x) := by
      subst hx; cases x <;> rfl
    have hobj : endTimeObj (some o) x =
        [.obj (if SameObject o x then o.setEndtime x.obj.timestamp else o)] := by
      simp only [endTimeObj]
      by_cases h : x.obj.id = o.obj.id
      · rw [if_pos h, if_pos ⟨ho.trans hx.symm, h.symm⟩]
      · rw [if_neg h, if_neg (fun h' => h h'.2.symm)]
    constructor
    · simp only [List.map_cons, List.cons_append, endTimeRun, hstep, ih1, hobj, endTimes]
      rfl
    · simp only [List.map_cons, List.cons_append, List.foldl_cons, hstep]
      exact ih2

/-- A whole run. -/
theorem endTime_run (r : List OsmObj) (hne : r ≠ []) (ht : ∃ t, ∀ o ∈ r, o.type = t) :
    endTimeRun EndTimeState.new (runCalls r) = runCalls (endTimes r) ∧
    (runCalls r).foldl (fun s c => (endTimeStep s c).1) EndTimeState.new = EndTimeState.new := by
  cases r with
  | nil => exact absurd rfl hne
  | cons o os =>
    obtain ⟨t, ht⟩ := ht
    have ho : o.type = t := ht o (by simp)
    obtain ⟨h1, h2⟩ := endTime_inside t o os ho (fun x hx => ht x (by simp [hx]))
    have hrun : runCalls (endTimes (o :: os)) =
        .before t :: (endTimes (o :: os)).map Cb.obj ++ [.after t] := by
      obtain ⟨t', h | ⟨l, h⟩⟩ := endTimes_cons_head o os
      · rw [h]; simp only [runCalls, ho]
      · rw [h]; simp only [runCalls, setEndtime_type, ho]
    have hb : endTimeStep EndTimeState.new (.before t) = (.new, [.before t]) := by
      subst ho; cases o <;> rfl
    have ho' : endTimeStep EndTimeState.new (.obj o) = (EndTimeState.with_ t o, []) := by
      subst ho; cases o <;> rfl
    rw [hrun]
    constructor
    · simp only [runCalls, ho, List.map_cons, List.cons_append, endTimeRun, hb, ho',
        List.nil_append, h1]
    · simp only [runCalls, List.map_cons, List.cons_append, List.foldl_cons, hb, ho', ho]
      exact h2

theorem endTimes_append_ne (a : List OsmObj) (x y : OsmObj) (b : List OsmObj)
    (h : x.type ≠ y.type) :
    endTimes (a ++ x :: y :: b) = endTimes (a ++ [x]) ++ endTimes (y :: b) := by
  induction a with
  | nil =>
    have : ¬ SameObject x y := fun hs => h hs.1
    simp [endTimes, this]
  | cons c a ih =>
    cases a with
    | nil =>
      have : ¬ SameObject x y := fun hs => h hs.1
      simp [endTimes, this]
    | cons d a => simp only [List.cons_append, endTimes] at ih ⊢; rw [ih]

/-- The runs of a history with end times. -/
theorem runs_endTimes (os : List OsmObj) : runs (endTimes os) = (runs os).map endTimes := by
  induction os with
  | nil => rfl
  | cons o os ih =>
    cases os with
    | nil => simp [endTimes, runs]
    | cons x os =>
      obtain ⟨r, rs, hr⟩ := runs_cons_ne x os
      obtain ⟨t, hx⟩ := endTimes_cons_head x os
      have hhead : ∃ x' l, endTimes (x :: os) = x' :: l ∧ x'.type = x.type := by
        rcases hx with h | ⟨l, h⟩
        · exact ⟨_, _, h, rfl⟩
        · exact ⟨_, _, h, by simp⟩
      obtain ⟨x', l, hl, hxt⟩ := hhead
      rw [hr, hl] at ih
      have hty : (if SameObject o x then o.setEndtime x.obj.timestamp else o).type = o.type := by
        split <;> simp
      rw [endTimes, hl]
      generalize ho' : (if SameObject o x then o.setEndtime x.obj.timestamp else o) = o' at hty
      obtain ⟨r', rs', hr'⟩ := runs_cons_ne x' l
      rw [hr'] at ih
      simp only [List.map_cons, List.cons.injEq] at ih
      obtain ⟨ih1, ih2⟩ := ih
      rw [runs, hr', runs, hr]
      simp only [hty, hxt]
      by_cases h : o.type = x.type
      · simp only [h, if_true, List.map_cons, endTimes, ho', ih2]
        rw [← ih1]
      · simp only [h, if_false, List.map_cons, ih2]
        have : ¬ SameObject o x := fun hs => h hs.1
        simp only [this, if_false] at ho'
        subst ho'
        rw [← ih1]
        simp [endTimes]

/-- **C33.**  Of a file with any objects, the handler passes on the callbacks of the file with
the same objects in the same order, each version ending with the timestamp of the directly
following version of the same object. -/
theorem endTime_protocol (m : Meta) (os : List OsmObj) :
    endTimeRun EndTimeState.new (protocol m os) = protocol m (endTimes os) := by
  unfold protocol
  rw [runs_endTimes]
  have hne := runs_ne_nil os
  have hty := runs_type os
  simp only [List.cons_append, endTimeRun]
  have h0 : endTimeStep EndTimeState.new (.init m) = (.new, [.init m]) := rfl
  rw [h0]
  simp only [List.cons_append, List.nil_append, List.cons.injEq, true_and]
  have key : ∀ rs : List (List OsmObj), (∀ r ∈ rs, r ≠ []) →
      (∀ r ∈ rs, ∃ t, ∀ o ∈ r, o.type = t) →
      endTimeRun EndTimeState.new (rs.flatMap runCalls ++ [.final]) =
        (rs.map endTimes).flatMap runCalls ++ [.final] := by
    intro rs
    induction rs with
    | nil => intros; rfl
    | cons r rs ih =>
      intro h1 h2
      obtain ⟨e1, e2⟩ := endTime_run r (h1 r (by simp)) (h2 r (by simp))
      simp only [List.flatMap_cons, List.append_assoc, List.map_cons]
      rw [endTimeRun_append _ _ _ _ e2, e1,
        ih (fun r hr => h1 r (by simp [hr])) (fun r hr => h2 r (by simp [hr]))]
  exact key _ hne hty

/-- **C33.**  What `endTimes` does to the object at each place. -/
theorem endTimes_getElem (os : List OsmObj) (k : Nat) (o : OsmObj) (h : os[k]? = some o) :
    (endTimes os)[k]? = some (match os[k + 1]? with
      | some o' => if SameObject o o' then o.setEndtime o'.obj.timestamp else o
      | none => o) := by
  induction os generalizing k with
  | nil => simp at h
  | cons a os ih =>
    cases os with
    | nil =>
      cases k with
      | zero => simp at h; subst h; simp [endTimes]
      | succ k => simp at h
    | cons b os =>
      cases k with
      | zero => simp at h; subst h; simp [endTimes]
      | succ k =>
        simp only [List.getElem?_cons_succ] at h ⊢
        rw [endTimes, List.getElem?_cons_succ, ih k h]
        simp

theorem endTimes_length (os : List OsmObj) : (endTimes os).length = os.length := by
  induction os with
  | nil => rfl
  | cons a os ih => cases os with
    | nil => rfl
    | cons b os => simp only [endTimes, List.length_cons] at *; omega

/-- Data for the examples, no counterpart in /repo. -/
private def ver (id v ts : Int) : OsmObj :=
  .node ⟨{ Obj.new with id := id, version := v, timestamp := ts }, .undef⟩

example : endTimeRun EndTimeState.new (protocol (Meta.new true) [ver 1 1 10, ver 1 2 20, ver 2 1 15]) =
    protocol (Meta.new true) [(ver 1 1 10).setEndtime 20, ver 1 2 20, ver 2 1 15] := by
  decide +kernel

/-! ### C34 -/

/-- **C34.**  For a range with `from ≤ to` and a version that does not end before it begins: it is
forwarded if and only if it is valid (end point included) at some time of the range. -/
theorem range_overlap (lo hi : Int) (h : lo ≤ hi) (o : Obj)
    (ho : o.endtime = 0 ∨ o.timestamp ≤ o.endtime) :
    inRange lo hi o = true ↔ ∃ t, lo ≤ t ∧ t ≤ hi ∧ ValidAt o t := by
  simp only [inRange, Bool.and_eq_true, Bool.or_eq_true, beq_iff_eq, decide_eq_true_eq, ValidAt]
  constructor
  · rintro ⟨h1, h2⟩
    by_cases hc : lo ≤ o.timestamp
    · exact ⟨o.timestamp, hc, h2, Int.le_refl _, by omega⟩
    · exact ⟨lo, Int.le_refl _, h, by omega, by omega⟩
  · rintro ⟨t, h1, h2, h3, h4⟩
    by_cases hz : o.endtime = 0
    · exact ⟨.inl hz, by omega⟩
    · have := h4 hz
      exact ⟨.inr (by omega), by omega⟩

/-- **C34.**  The handler passes on exactly the callbacks it gets, in order, except for the
objects not in the range. -/
theorem range_run (lo hi : Int) (calls : List Cb) :
    rangeRun lo hi calls = calls.filter (fun | .obj o => inRange lo hi o.obj | _ => true) := by
  induction calls with
  | nil => rfl
  | cons c cs ih =>
    simp only [rangeRun, List.flatMap_cons] at ih ⊢
    rw [ih]
    cases c with
    | obj o =>
      by_cases h : inRange lo hi o.obj = true
      · simp [rangeStep, List.filter_cons, h]
      · simp [rangeStep, List.filter_cons, h]
    | _ => simp [rangeStep, List.filter_cons]

/-- **C34**, the boundary: a version that ended at the very beginning of the range is forwarded. -/
theorem range_end_included :
    inRange 20 30 ((ver 1 1 10).setEndtime 20).obj = true := by decide

/-! ### C35 -/

theorem next_version {os : List OsmObj} (hh : History os) {k j : Nat} {o o' : OsmObj}
    (hk : os[k]? = some o) (hj : os[j]? = some o') (hkj : k < j) (hs : SameObject o o') :
    ∃ n, os[k + 1]? = some n ∧ SameObject o n ∧ n.obj.timestamp ≤ o'.obj.timestamp := by
  by_cases he : j = k + 1
  · subst he; exact ⟨o', hj, hs, Int.le_refl _⟩
  · have hlt : k + 1 < j := by omega
    have hjl : j < os.length := (List.getElem?_eq_some_iff.1 hj).1
    have hn : os[k + 1]? = some (os[k + 1]'(by omega)) := List.getElem?_eq_getElem _
    have hsn := hh.together k (k + 1) j _ _ _ (by omega) hlt hk hn hj hs
    refine ⟨_, hn, hsn, ?_⟩
    have := List.pairwise_iff_getElem.1 hh.increasing (k + 1) j (by omega) hjl hlt
    obtain ⟨_, hje⟩ := List.getElem?_eq_some_iff.1 hj
    rw [hje] at this
    exact Int.le_of_lt (this ⟨hsn.1.symm.trans hs.1, hsn.2.symm.trans hs.2⟩)

/-- **C35**, exactly which versions a point-in-time extract contains: those with a timestamp not
after `t`, all later versions of the same object being not before `t`. -/
theorem point_in_time_exact (os : List OsmObj) (hh : History os) (t : Int) (k : Nat) (o x : OsmObj)
    (hk : os[k]? = some o) (hx : (endTimes os)[k]? = some x) :
    inRange t t x.obj = true ↔ o.obj.timestamp ≤ t ∧
      ∀ (j : Nat) (o' : OsmObj), k < j → os[j]? = some o' → SameObject o o' →
        t ≤ o'.obj.timestamp := by
  rw [endTimes_getElem os k o hk] at hx
  have hend := hh.unended o (List.mem_of_getElem? hk)
  simp only [Option.some.injEq] at hx
  by_cases hnext : ∃ n, os[k + 1]? = some n ∧ SameObject o n
  · obtain ⟨n, hn, hs⟩ := hnext
    simp only [hn, hs, if_true] at hx
    subst hx
    have hp := hh.positive n (List.mem_of_getElem? hn)
    simp only [inRange, setEndtime_endtime, setEndtime_timestamp, Bool.and_eq_true,
      Bool.or_eq_true, beq_iff_eq, decide_eq_true_eq]
    constructor
    · rintro ⟨h1, h2⟩
      refine ⟨h2, fun j o' hj ho' hs' => ?_⟩
      obtain ⟨n', hn', -, hle⟩ := next_version hh hk ho' hj hs'
      rw [hn] at hn'; injection hn' with e; subst e
      omega
    · rintro ⟨h1, h2⟩
      exact ⟨.inr (h2 (k + 1) n (by omega) hn hs), h1⟩
  · have hx' : x = o := by
      rw [← hx]
      cases hn : os[k + 1]? with
      | none => rfl
      | some n => simp only; rw [if_neg (fun hs => hnext ⟨n, hn, hs⟩)]
    subst hx'
    simp only [inRange, Bool.and_eq_true, Bool.or_eq_true, beq_iff_eq, decide_eq_true_eq]
    constructor
    · rintro ⟨-, h2⟩
      refine ⟨h2, fun j o' hj ho' hs' => ?_⟩
      obtain ⟨n', hn', hsn, -⟩ := next_version hh hk ho' hj hs'
      exact absurd ⟨n', hn', hsn⟩ hnext
    · rintro ⟨h1, -⟩; exact ⟨.inl hend, h1⟩

/-- **C35** (partial: `t` must not be the timestamp of a version that has a predecessor): the
extract contains of each object at most one version, and this is the last one not after `t`. -/
theorem point_in_time_partial (os : List OsmObj) (hh : History os) (t : Int)
    (ht : os.Pairwise fun a b => SameObject a b → b.obj.timestamp ≠ t) :
    ((endTimes os).filter (fun x => inRange t t x.obj)).Pairwise (fun a b => ¬ SameObject a b) ∧
    ∀ (k : Nat) (o x : OsmObj), os[k]? = some o → (endTimes os)[k]? = some x →
      (inRange t t x.obj = true ↔ o.obj.timestamp ≤ t ∧
        ∀ (j : Nat) (o' : OsmObj), k < j → os[j]? = some o' → SameObject o o' →
          t < o'.obj.timestamp) := by
  have hexact : ∀ (k : Nat) (o x : OsmObj), os[k]? = some o → (endTimes os)[k]? = some x →
      (inRange t t x.obj = true ↔ o.obj.timestamp ≤ t ∧
        ∀ (j : Nat) (o' : OsmObj), k < j → os[j]? = some o' → SameObject o o' →
          t < o'.obj.timestamp) := by
    intro k o x hk hx
    rw [point_in_time_exact os hh t k o x hk hx]
    refine and_congr_right fun _ => ⟨fun h j o' hj ho' hs => ?_, fun h j o' hj ho' hs => ?_⟩
    · have h1 := h j o' hj ho' hs
      obtain ⟨hkl, hke⟩ := List.getElem?_eq_some_iff.1 hk
      obtain ⟨hjl, hje⟩ := List.getElem?_eq_some_iff.1 ho'
      have := List.pairwise_iff_getElem.1 ht k j hkl hjl hj
      rw [hke, hje] at this
      have := this hs
      omega
    · exact Int.le_of_lt (h j o' hj ho' hs)
  refine ⟨?_, hexact⟩
  -- pairwise on the unfiltered list, for kept elements
  have hpw : (endTimes os).Pairwise (fun a b => inRange t t a.obj = true →
      inRange t t b.obj = true → ¬ SameObject a b) := by
    rw [List.pairwise_iff_getElem]
    intro i j hi hj hij h1 h2 hs
    have hi' : i < os.length := by rw [← endTimes_length]; exact hi
    have hj' : j < os.length := by rw [← endTimes_length]; exact hj
    have ei : os[i]? = some os[i] := List.getElem?_eq_getElem _
    have ej : os[j]? = some os[j] := List.getElem?_eq_getElem _
    have xi := hexact i _ _ ei (List.getElem?_eq_getElem hi)
    have xj := hexact j _ _ ej (List.getElem?_eq_getElem hj)
    have hsame : ∀ (k : Nat) (o x : OsmObj), os[k]? = some o → (endTimes os)[k]? = some x →
        SameObject o x := by
      intro k o x hk hx
      rw [endTimes_getElem os k o hk] at hx
      simp only [Option.some.injEq] at hx
      subst hx
      cases os[k + 1]? with
      | none => exact ⟨rfl, rfl⟩
      | some n =>
        simp only
        split
        · exact ⟨by simp, by simp⟩
        · exact ⟨rfl, rfl⟩
    have s1 := hsame i _ _ ei (List.getElem?_eq_getElem hi)
    have s2 := hsame j _ _ ej (List.getElem?_eq_getElem hj)
    have hoo : SameObject os[i] os[j] :=
      ⟨s1.1.trans (hs.1.trans s2.1.symm), s1.2.trans (hs.2.trans s2.2.symm)⟩
    have := (xi.1 h1).2 j _ hij ej hoo
    have := (xj.1 h2).1
    omega
  rw [List.pairwise_filter]
  exact hpw

/-- The stacked handlers: a point-in-time extract of a file passes on the objects kept. -/
theorem point_in_time_calls (m : Meta) (os : List OsmObj) (t : Int) :
    rangeRun t t (endTimeRun EndTimeState.new (protocol m os)) =
      (protocol m (endTimes os)).filter
        (fun | .obj o => inRange t t o.obj | _ => true) := by
  rw [endTime_protocol, range_run]

/-- The objects passed on are those of the extract. -/
theorem point_in_time_objects (m : Meta) (os : List OsmObj) (t : Int) :
    objects (rangeRun t t (endTimeRun EndTimeState.new (protocol m os))) =
      (endTimes os).filter (fun x => inRange t t x.obj) := by
  rw [point_in_time_calls]
  have hf : ∀ calls : List Cb, objects (calls.filter
      (fun | .obj o => inRange t t o.obj | _ => true)) =
      (objects calls).filter (fun x => inRange t t x.obj) := by
    intro calls
    induction calls with
    | nil => rfl
    | cons c cs ih =>
      cases c with
      | obj o =>
        by_cases h : inRange t t o.obj = true
        · simp only [objects, List.filter_cons, h, if_true, List.filterMap_cons] at ih ⊢
          rw [ih]
        · simp only [objects, List.filter_cons, h, List.filterMap_cons] at ih ⊢
          simpa using ih
      | _ =>
        simp only [objects, List.filter_cons, if_true, List.filterMap_cons] at ih ⊢
        exact ih
  have hp : ∀ os : List OsmObj, objects (protocol m os) = os := by
    intro os
    have hobjs : ∀ r : List OsmObj, objects (runCalls r) = r := by
      intro r
      have : ∀ l : List OsmObj, objects (l.map Cb.obj) = l := by
        intro l; induction l with
        | nil => rfl
        | cons a l ih => simp only [objects, List.map_cons, List.filterMap_cons] at *; rw [ih]
      cases r with
      | nil => rfl
      | cons o r =>
        simp only [runCalls]
        have h2 := this (o :: r)
        simp only [objects, List.cons_append, List.filterMap_cons, List.filterMap_append] at h2 ⊢
        simpa using h2
    have : objects ((runs os).flatMap runCalls) = (runs os).flatten := by
      generalize runs os = rs
      induction rs with
      | nil => rfl
      | cons r rs ih =>
        have h1 := hobjs r
        simp only [objects, List.flatMap_cons, List.filterMap_append, List.flatten_cons] at *
        rw [h1, ih]
    rw [runs_flatten] at this
    simp only [objects, protocol, List.cons_append, List.filterMap_cons,
      List.filterMap_append] at this ⊢
    rw [this]; simp
  rw [hf, hp]

/-- Data for the examples, no counterpart in /repo. -/
private def demoHistory : List OsmObj := [ver 1 1 10, ver 1 2 20, ver 1 3 30, ver 2 1 15]

example : History demoHistory ∧
    (demoHistory.Pairwise fun a b => SameObject a b → b.obj.timestamp ≠ 25) ∧
    (endTimes demoHistory).filter (fun x => inRange 25 25 x.obj) =
      [(ver 1 2 20).setEndtime 30, ver 2 1 15] := by
  refine ⟨⟨?_, by decide, by decide, by decide⟩, by decide, by decide +kernel⟩
  intro i j k a b c hij hjk ha hb hc hs
  have hk : k < 4 := (List.getElem?_eq_some_iff.1 hc).1
  have : (i = 0 ∧ j = 1) ∨ (i = 0 ∧ j = 2) ∨ (i = 1 ∧ j = 2) := by omega
  rcases this with ⟨rfl, rfl⟩ | ⟨rfl, rfl⟩ | ⟨rfl, rfl⟩ <;>
    (simp only [demoHistory, List.getElem?_cons_zero, List.getElem?_cons_succ,
      Option.some.injEq] at ha hb; subst ha hb; decide)

/-- **C35** fails at the instant an object changes: the extract for that instant contains both
the old and the new version. -/
theorem point_in_time_two_versions :
    objects (rangeRun 20 20 (endTimeRun EndTimeState.new (protocol (Meta.new true)
      [ver 1 1 10, ver 1 2 20]))) = [(ver 1 1 10).setEndtime 20, ver 1 2 20] := by
  decide +kernel

end Osmium
