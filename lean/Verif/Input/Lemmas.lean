import Verif.Input.Model
import Mathlib.Data.List.Basic
/-
Sequences of callbacks.
-/
namespace Osmium

/-- The callbacks for a sequence of objects when the last object before was of type `last`. -/
def seqCalls (m : Meta) : ObjType → List OsmObj → List Cb
  | _, [] => []
  | last, o :: os => afterAndBefore m last o.type ++ .obj o :: seqCalls m o.type os

/-- The type of the last object. -/
def lastType (last : ObjType) (os : List OsmObj) : ObjType :=
  match os.getLast? with
  | none => last
  | some o => o.type

theorem lastType_append (last : ObjType) (a b : List OsmObj) :
    lastType last (a ++ b) = lastType (lastType last a) b := by
  unfold lastType
  cases hb : b.getLast? with
  | none =>
    have : b = [] := by simpa using hb
    subst this; simp
  | some x => simp [hb]

theorem lastType_cons (last : ObjType) (o : OsmObj) (os : List OsmObj) :
    lastType last (o :: os) = lastType o.type os := by
  rw [show o :: os = [o] ++ os from rfl, lastType_append]; rfl

theorem seqCalls_append (m : Meta) (last : ObjType) (a b : List OsmObj) :
    seqCalls m last (a ++ b) = seqCalls m last a ++ seqCalls m (lastType last a) b := by
  induction a generalizing last with
  | nil => rfl
  | cons o os ih =>
    simp only [List.cons_append, seqCalls, ih, List.append_assoc, lastType_cons]

theorem afterAndBefore_self (m : Meta) (k : ObjType) : afterAndBefore m k k = [] := by
  simp [afterAndBefore]

theorem seqCalls_same (m : Meta) (k : ObjType) (os : List OsmObj) (h : ∀ o ∈ os, o.type = k) :
    seqCalls m k os = os.map Cb.obj := by
  induction os with
  | nil => rfl
  | cons o os ih =>
    have := h o (by simp)
    simp only [seqCalls, this, afterAndBefore_self, List.nil_append, List.map_cons,
      ih (fun x hx => h x (by simp [hx]))]

theorem seqCalls_run (m : Meta) (last k : ObjType) (os : List OsmObj) (h : ∀ o ∈ os, o.type = k)
    (hne : os ≠ []) : seqCalls m last os = afterAndBefore m last k ++ os.map Cb.obj := by
  cases os with
  | nil => exact absurd rfl hne
  | cons o os =>
    have := h o (by simp)
    simp only [seqCalls, this, List.map_cons]
    rw [seqCalls_same m k os (fun x hx => h x (by simp [hx]))]

theorem lastType_run (last k : ObjType) (os : List OsmObj) (h : ∀ o ∈ os, o.type = k)
    (hne : os ≠ []) : lastType last os = k := by
  unfold lastType
  cases hl : os.getLast? with
  | none => simp at hl; exact absurd hl hne
  | some o => exact h o (List.mem_of_getLast? hl)

end Osmium
