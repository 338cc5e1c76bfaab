import Verif.Osm.Props
import Verif.Input.Props
import Verif.Pbf.Spec
import Mathlib.Data.List.Perm.Basic

/-
C36, C37: storage/objectstore.hpp.
-/
namespace Osmium

/-- `std::set::insert`: the set is the sequence of its elements; an element equivalent to one in
the set is not inserted.  (If the comparison is not a strict weak order on the elements the C++
standard does not say what happens; a sequence is then only one of the possibilities.)  `none` is
undefined behaviour of the comparison, osm/node.hpp 87-93. -/
def setInsert (x : OsmObj) : List OsmObj → Option (List OsmObj)
  | [] => some [x]
  | y :: ys => do
    let lt ← objLt x.obj y.obj
    if lt then return x :: y :: ys
    else
      let gt ← objLt y.obj x.obj
      if gt then return y :: (← setInsert x ys)
      else return y :: ys

/-- storage/objectstore.hpp 154-160: the three sets. -/
structure ObjStore where
  nodes : List OsmObj
  ways : List OsmObj
  relations : List OsmObj
deriving DecidableEq

/-- storage/objectstore.hpp 52-57 constructor. -/
def ObjStore.empty : ObjStore := ⟨[], [], []⟩

/-- storage/objectstore.hpp 62-78 `node`, `way`, `relation`. -/
def ObjStore.insert (s : ObjStore) (o : OsmObj) : Option ObjStore :=
  match o with
  | .node _ => do return { s with nodes := ← setInsert o s.nodes }
  | .way _ => do return { s with ways := ← setInsert o s.ways }
  | .relation _ => do return { s with relations := ← setInsert o s.relations }

/-- A sequence of insertions. (storage/objectstore.hpp 62-80, for all objects) -/
def ObjStore.insertAll (s : ObjStore) (os : List OsmObj) : Option ObjStore :=
  os.foldlM ObjStore.insert s

/-- storage/objectstore.hpp 125-150 `feed_to`: the calls on the handler and the store
afterwards. -/
def ObjStore.feedTo (s : ObjStore) (m : Meta) (clear : Bool) : List Cb × ObjStore :=
  ([.init m, .before .node] ++ s.nodes.map Cb.obj ++ [.after .node, .before .way] ++
    s.ways.map Cb.obj ++ [.after .way, .before .relation] ++ s.relations.map Cb.obj ++
    [.after .relation, .final],
   if clear then ObjStore.empty else s)

/-- storage/objectstore.hpp 190-195 the loop of `ApplyHandler::node` (and `way` 205-210,
`relation` 220-225): the stored objects passed on before `x`, and those that remain. -/
def applyFlush (x : OsmObj) : List OsmObj → Option (List OsmObj × List OsmObj)
  | [] => some ([], [])
  | y :: ys => do
    let lt ← objLt y.obj x.obj
    if lt then
      let r ← applyFlush x ys
      return (y :: r.1, r.2)
    else return ([], y :: ys)

/-- storage/objectstore.hpp 172-251 class `ApplyHandler`: one callback; the state holds the objects
between the iterators and the ends.  All other callbacks are forwarded (handler.hpp 125-196), but
`init` (186-188) passes on the handler's own meta object. -/
def applyStep (m : Meta) (s : ObjStore) (c : Cb) : Option (ObjStore × List Cb) :=
  match c with
  | .init _ => some (s, [.init m])
  | .obj (.node n) => do
    let r ← applyFlush (.node n) s.nodes
    return ({ s with nodes := r.2 }, r.1.map Cb.obj ++ [c])
  | .obj (.way n) => do
    let r ← applyFlush (.way n) s.ways
    return ({ s with ways := r.2 }, r.1.map Cb.obj ++ [c])
  | .obj (.relation n) => do
    let r ← applyFlush (.relation n) s.relations
    return ({ s with relations := r.2 }, r.1.map Cb.obj ++ [c])
  | .after .node => some ({ s with nodes := [] }, s.nodes.map Cb.obj ++ [c])
  | .after .way => some ({ s with ways := [] }, s.ways.map Cb.obj ++ [c])
  | .after .relation => some ({ s with relations := [] }, s.relations.map Cb.obj ++ [c])
  | c => some (s, [c])

/-- All calls made on the next handler. (storage/objectstore.hpp 189-240, for all callbacks) -/
def applyRun (m : Meta) : ObjStore → List Cb → Option (List Cb)
  | _, [] => some []
  | s, c :: cs => do
    let r ← applyStep m s c
    let out ← applyRun m r.1 cs
    return r.2 ++ out

namespace Spec

/-- The order of the store: by absolute value of the id, then by version. (specification, no counterpart in /repo) -/
def Before (a b : OsmObj) : Prop :=
  a.obj.id.natAbs < b.obj.id.natAbs ∨
    (a.obj.id.natAbs = b.obj.id.natAbs ∧ a.obj.version < b.obj.version)

instance (a b : OsmObj) : Decidable (Before a b) := by unfold Before; infer_instance

/-- Same type, id and version. (specification, no counterpart in /repo) -/
def SameVersion (a b : OsmObj) : Prop :=
  a.type = b.type ∧ a.obj.id = b.obj.id ∧ a.obj.version = b.obj.version

instance (a b : OsmObj) : Decidable (SameVersion a b) := by unfold SameVersion; infer_instance

/-- Objects that can be compared: no id is the smallest 64 bit value, and no two objects of the
same type have ids that differ only in their sign. -/
def Comparable (os : List OsmObj) : Prop :=
  (∀ a ∈ os, a.obj.absOk) ∧
  ∀ a ∈ os, ∀ b ∈ os, a.type = b.type → a.obj.id = -b.obj.id → a.obj.id = b.obj.id

end Spec

open Spec

/-- Comparing two objects of a comparable list. -/
theorem objLt_before {os : List OsmObj} (h : Comparable os) {a b : OsmObj} (ha : a ∈ os)
    (hb : b ∈ os) (ht : a.type = b.type) :
    objLt a.obj b.obj = some (decide (Before a b)) := by
  have ha' := h.1 a ha
  have hb' := h.1 b hb
  have hn := h.2 a ha b hb ht
  rw [objLt_eq a.obj b.obj ha' hb']
  congr 1
  unfold Before
  by_cases he : a.obj.id = b.obj.id
  · simp [he]
  · have : ¬ a.obj.id.natAbs = b.obj.id.natAbs := by omega
    simp [he, this]

/-- Insertion with the pure order. (helper for statements and proofs, no counterpart in /repo) -/
def insertP (x : OsmObj) : List OsmObj → List OsmObj
  | [] => [x]
  | y :: ys => if Before x y then x :: y :: ys else if Before y x then y :: insertP x ys else y :: ys

theorem setInsert_eq {os : List OsmObj} (h : Comparable os) {x : OsmObj} (hx : x ∈ os)
    (l : List OsmObj) (hl : ∀ y ∈ l, y ∈ os ∧ y.type = x.type) :
    setInsert x l = some (insertP x l) := by
  induction l with
  | nil => rfl
  | cons y ys ih =>
    obtain ⟨hy, ht⟩ := hl y (by simp)
    have ih := ih (fun z hz => hl z (by simp [hz]))
    simp only [setInsert, insertP, objLt_before h hx hy ht.symm, objLt_before h hy hx ht, ih]
    by_cases h1 : Before x y
    · simp [h1]
    · by_cases h2 : Before y x
      · simp [h1, h2]
      · simp [h1, h2]

theorem insertP_mem (x : OsmObj) (l : List OsmObj) (z : OsmObj) (h : z ∈ insertP x l) :
    z = x ∨ z ∈ l := by
  induction l with
  | nil => simpa [insertP] using h
  | cons y ys ih =>
    simp only [insertP] at h
    split at h
    · simpa using h
    · split at h
      · rcases List.mem_cons.1 h with h | h
        · exact .inr (by simp [h])
        · rcases ih h with h | h
          · exact .inl h
          · exact .inr (by simp [h])
      · exact .inr h

theorem insertP_keeps (x : OsmObj) (l : List OsmObj) (z : OsmObj) (h : z ∈ l) :
    z ∈ insertP x l := by
  induction l with
  | nil => simp at h
  | cons y ys ih =>
    simp only [insertP]
    split
    · simp only [List.mem_cons] at h ⊢; tauto
    · split
      · rcases List.mem_cons.1 h with h | h
        · simp [h]
        · simp [ih h]
      · exact h

theorem insertP_has (x : OsmObj) (l : List OsmObj) :
    x ∈ insertP x l ∨ ∃ y ∈ l, ¬ Before x y ∧ ¬ Before y x := by
  induction l with
  | nil => simp [insertP]
  | cons y ys ih =>
    simp only [insertP]
    split
    · simp
    · split
      · rcases ih with h | ⟨z, hz, h⟩
        · exact .inl (by simp [h])
        · exact .inr ⟨z, by simp [hz], h⟩
      · rename_i h1 h2
        exact .inr ⟨y, by simp, h1, h2⟩

/-- A new element is inserted only if nothing equivalent is there. -/
theorem insertP_new (x : OsmObj) (l : List OsmObj) (hl : l.Pairwise Before) (hx : x ∉ l)
    (h : x ∈ insertP x l) : ∀ y ∈ l, Before x y ∨ Before y x := by
  induction l with
  | nil => simp
  | cons y ys ih =>
    rw [List.pairwise_cons] at hl
    simp only [insertP] at h
    have hxy : x ≠ y := fun e => hx (by simp [e])
    have hxs : x ∉ ys := fun e => hx (by simp [e])
    split at h
    · rename_i h1
      intro z hz
      rcases List.mem_cons.1 hz with rfl | hz
      · exact .inl h1
      · have := hl.1 z hz
        left; unfold Before at *; omega
    · split at h
      · rename_i h1 h2
        rcases List.mem_cons.1 h with h | h
        · exact absurd h hxy
        · intro z hz
          rcases List.mem_cons.1 hz with rfl | hz
          · exact .inr h2
          · exact ih hl.2 hxs h z hz
      · exact absurd h hx

theorem insertP_sorted (x : OsmObj) (l : List OsmObj) (hl : l.Pairwise Before) :
    (insertP x l).Pairwise Before := by
  induction l with
  | nil => simp [insertP]
  | cons y ys ih =>
    have hl' := hl
    rw [List.pairwise_cons] at hl
    simp only [insertP]
    split
    · rename_i h1
      rw [List.pairwise_cons]
      refine ⟨fun z hz => ?_, hl'⟩
      rcases List.mem_cons.1 hz with rfl | hz
      · exact h1
      · have := hl.1 z hz
        unfold Before at *; omega
    · split
      · rename_i h1 h2
        rw [List.pairwise_cons]
        refine ⟨fun z hz => ?_, ih hl.2⟩
        rcases insertP_mem x ys z hz with rfl | hz
        · exact h2
        · exact hl.1 z hz
      · exact hl'

/-- What a set holds after the objects `os` were inserted, those of type `t` into this one.
(helper for statements and proofs, no counterpart in /repo) -/
structure Holds (t : ObjType) (os l : List OsmObj) : Prop where
  sorted : l.Pairwise Before
  first : ∀ x ∈ l, x.type = t ∧ os.find? (fun o => SameVersion o x) = some x
  all : ∀ o ∈ os, o.type = t → ∃ x ∈ l, SameVersion o x

theorem Holds.sub {t : ObjType} {os l : List OsmObj} (h : Holds t os l) :
    ∀ x ∈ l, x ∈ os ∧ x.type = t := fun x hx =>
  ⟨List.mem_of_find?_eq_some (h.first x hx).2, (h.first x hx).1⟩

theorem Holds.skip {t : ObjType} {os l : List OsmObj} (h : Holds t os l) (o : OsmObj)
    (ho : o.type ≠ t) : Holds t (os ++ [o]) l where
  sorted := h.sorted
  first x hx := by
    obtain ⟨h1, h2⟩ := h.first x hx
    refine ⟨h1, ?_⟩
    rw [List.find?_append, h2]; rfl
  all x hx ht := by
    rcases List.mem_append.1 hx with hx | hx
    · exact h.all x hx ht
    · simp only [List.mem_singleton] at hx; subst hx; exact absurd ht ho

theorem Holds.insert {t : ObjType} {os l : List OsmObj} (h : Holds t os l) (o : OsmObj)
    (ho : o.type = t) (hc : Comparable (os ++ [o])) : Holds t (os ++ [o]) (insertP o l) where
  sorted := insertP_sorted o l h.sorted
  first x hx := by
    by_cases hxl : x ∈ l
    · obtain ⟨h1, h2⟩ := h.first x hxl
      refine ⟨h1, ?_⟩
      rw [List.find?_append, h2]; rfl
    · rcases insertP_mem o l x hx with rfl | hx'
      · refine ⟨ho, ?_⟩
        have hnew := insertP_new x l h.sorted hxl hx
        rw [List.find?_append]
        have : os.find? (fun o => SameVersion o x) = none := by
          rw [List.find?_eq_none]
          intro y hy hs
          simp only [decide_eq_true_eq] at hs
          have hyt : y.type = t := hs.1.trans ho
          obtain ⟨z, hz, hyz⟩ := h.all y hy hyt
          have := hnew z hz
          obtain ⟨-, a1, a2⟩ := hs
          obtain ⟨-, b1, b2⟩ := hyz
          unfold Before at this
          rw [← a1, b1, ← a2, b2] at this
          omega
        rw [this]
        simp [SameVersion]
      · exact absurd hx' hxl
  all x hx ht := by
    have keep : ∀ y, y ∈ os → y.type = t → ∃ z ∈ insertP o l, SameVersion y z := by
      intro y hy hyt
      obtain ⟨z, hz, hs⟩ := h.all y hy hyt
      exact ⟨z, insertP_keeps o l z hz, hs⟩
    rcases List.mem_append.1 hx with hx | hx
    · exact keep x hx ht
    · simp only [List.mem_singleton] at hx
      subst hx
      rcases insertP_has x l with hin | ⟨y, hy, h1, h2⟩
      · exact ⟨x, hin, rfl, rfl, rfl⟩
      · refine ⟨y, insertP_keeps x l y hy, ?_⟩
        obtain ⟨hyo, hyt⟩ := h.sub y hy
        have := hc.2 x (by simp) y (by simp [hyo]) (ho.trans hyt.symm)
        unfold Before at h1 h2
        exact ⟨ho.trans hyt.symm, by omega, by omega⟩

theorem comparable_sub {a b : List OsmObj} (h : Comparable b) (hs : ∀ x ∈ a, x ∈ b) :
    Comparable a :=
  ⟨fun x hx => h.1 x (hs x hx), fun x hx y hy => h.2 x (hs x hx) y (hs y hy)⟩

theorem insertAll_holds (os : List OsmObj) (hc : Comparable os) :
    ∃ s, ObjStore.empty.insertAll os = some s ∧ Holds .node os s.nodes ∧ Holds .way os s.ways ∧
      Holds .relation os s.relations := by
  induction os using List.reverseRecOn with
  | nil =>
    refine ⟨.empty, rfl, ⟨?_, ?_, ?_⟩, ⟨?_, ?_, ?_⟩, ⟨?_, ?_, ?_⟩⟩ <;> simp [ObjStore.empty]
  | append_singleton os o ih =>
    obtain ⟨s, hs, h1, h2, h3⟩ := ih (comparable_sub hc (fun x hx => by simp [hx]))
    have e : ObjStore.empty.insertAll (os ++ [o]) = s.insert o := by
      unfold ObjStore.insertAll at hs ⊢
      rw [List.foldlM_append, hs]; simp
    rw [e]
    have hmem : ∀ {t : ObjType} {l : List OsmObj}, Holds t os l → o.type = t →
        ∀ y ∈ l, y ∈ os ++ [o] ∧ y.type = o.type := by
      intro t l h ht y hy
      obtain ⟨a, b⟩ := h.sub y hy
      exact ⟨by simp [a], b.trans ht.symm⟩
    cases o with
    | node n =>
      have := setInsert_eq hc (x := .node n) (by simp) s.nodes (hmem h1 rfl)
      refine ⟨{ s with nodes := insertP (.node n) s.nodes }, by simp [ObjStore.insert, this],
        h1.insert _ rfl hc, h2.skip _ (by simp [OsmObj.type]), h3.skip _ (by simp [OsmObj.type])⟩
    | way n =>
      have := setInsert_eq hc (x := .way n) (by simp) s.ways (hmem h2 rfl)
      refine ⟨{ s with ways := insertP (.way n) s.ways }, by simp [ObjStore.insert, this],
        h1.skip _ (by simp [OsmObj.type]), h2.insert _ rfl hc, h3.skip _ (by simp [OsmObj.type])⟩
    | relation n =>
      have := setInsert_eq hc (x := .relation n) (by simp) s.relations (hmem h3 rfl)
      refine ⟨{ s with relations := insertP (.relation n) s.relations },
        by simp [ObjStore.insert, this],
        h1.skip _ (by simp [OsmObj.type]), h2.skip _ (by simp [OsmObj.type]), h3.insert _ rfl hc⟩

/-- **C36** (partial: no two objects of the same type may have ids that differ only in their
sign).  After inserting any objects in any order, the store feeds back, with the full sequence of
callbacks, three lists: of each type, in order, each version exactly once, namely the object
inserted first. -/
theorem objectStore_feed_partial (os : List OsmObj) (hc : Comparable os) (m : Meta) (clear : Bool) :
    ∃ s N W R, ObjStore.empty.insertAll os = some s ∧
      (s.feedTo m clear).1 =
        [.init m, .before .node] ++ N.map Cb.obj ++ [.after .node, .before .way] ++
        W.map Cb.obj ++ [.after .way, .before .relation] ++ R.map Cb.obj ++
        [.after .relation, .final] ∧
      Holds .node os N ∧ Holds .way os W ∧ Holds .relation os R := by
  obtain ⟨s, hs, h1, h2, h3⟩ := insertAll_holds os hc
  exact ⟨s, s.nodes, s.ways, s.relations, hs, rfl, h1, h2, h3⟩

/-- **C36.**  In `Holds`, "each exactly once": no two objects fed back are the same version. -/
theorem Holds.once {t : ObjType} {os l : List OsmObj} (h : Holds t os l) :
    l.Pairwise (fun a b => ¬ SameVersion a b) := by
  refine h.sorted.imp fun {a b} hab hs => ?_
  obtain ⟨-, h1, h2⟩ := hs
  unfold Before at hab
  rw [h1, h2] at hab
  omega

/-- **C36.**  The callbacks follow the protocol. -/
theorem objectStore_follows (s : ObjStore) (m : Meta) (clear : Bool)
    (hn : ∀ o ∈ s.nodes, o.type = .node) (hw : ∀ o ∈ s.ways, o.type = .way)
    (hr : ∀ o ∈ s.relations, o.type = .relation) :
    Follows (s.feedTo m clear).1 := by
  have key : ∀ (t : ObjType) (l : List OsmObj), (∀ o ∈ l, o.type = t) →
      (l.map Cb.obj).foldl PState.step (.inside t) = .inside t := by
    intro t l hl
    induction l with
    | nil => rfl
    | cons o l ih =>
      simp only [List.map_cons, List.foldl_cons, PState.step, hl o (by simp), if_true]
      exact ih (fun x hx => hl x (by simp [hx]))
  unfold Follows ObjStore.feedTo
  simp only [List.foldl_append, List.foldl_cons, List.foldl_nil, PState.step]
  rw [if_neg (by simp), key _ _ hn]
  simp only [PState.step, if_true]
  rw [if_neg (by simp), key _ _ hw]
  simp only [PState.step, if_true]
  rw [if_neg (by simp), key _ _ hr]
  simp [PState.step]

/-- **C36.**  With `clear` set the store is empty afterwards, without it is unchanged. -/
theorem objectStore_clear (s : ObjStore) (m : Meta) :
    (s.feedTo m true).2 = ObjStore.empty ∧ (s.feedTo m false).2 = s := ⟨rfl, rfl⟩

/-- Data for the examples, no counterpart in /repo. -/
private def nv (id v : Int) : OsmObj := .node ⟨{ Obj.new with id := id, version := v }, .undef⟩
/-- Data for the examples, no counterpart in /repo. -/
private def wv (id v : Int) : OsmObj := .way ⟨{ Obj.new with id := id, version := v }, []⟩

example : Comparable [nv 3 1, wv 5 1, nv (-1) 2, nv (-1) 1, nv 3 1] ∧
    ObjStore.empty.insertAll [nv 3 1, wv 5 1, nv (-1) 2, nv (-1) 1, nv 3 1] =
      some ⟨[nv (-1) 1, nv (-1) 2, nv 3 1], [wv 5 1], []⟩ := by
  refine ⟨⟨?_, ?_⟩, by decide +kernel⟩
  · unfold Obj.absOk; decide +kernel
  · decide +kernel

/-- **C36** fails for ids that differ only in their sign: the second object is dropped. -/
theorem objectStore_negative_id_dropped :
    ObjStore.empty.insertAll [nv 5 1, nv (-5) 1] = some ⟨[nv 5 1], [], []⟩ := by
  decide +kernel

/-! ### C37 -/

theorem applyFlush_eq {os : List OsmObj} (h : Comparable os) {x : OsmObj} (hx : x ∈ os)
    (l : List OsmObj) (hl : ∀ y ∈ l, y ∈ os ∧ y.type = x.type) :
    applyFlush x l = some (l.takeWhile (fun y => Before y x), l.dropWhile (fun y => Before y x)) := by
  induction l with
  | nil => rfl
  | cons y ys ih =>
    obtain ⟨hy, ht⟩ := hl y (by simp)
    have ih := ih (fun z hz => hl z (by simp [hz]))
    simp only [applyFlush, objLt_before h hy hx ht, ih, List.takeWhile_cons, List.dropWhile_cons]
    by_cases h1 : Before y x
    · simp [h1]
    · simp [h1]

/-- Merging a stored list into a stream. (helper for statements and proofs, no counterpart in /repo) -/
def mergeInto (stored : List OsmObj) : List OsmObj → List OsmObj
  | [] => stored
  | x :: xs => stored.takeWhile (fun y => Before y x) ++
      x :: mergeInto (stored.dropWhile (fun y => Before y x)) xs

theorem mergeInto_perm (stored xs : List OsmObj) : (mergeInto stored xs).Perm (stored ++ xs) := by
  induction xs generalizing stored with
  | nil => simp [mergeInto]
  | cons x xs ih =>
    simp only [mergeInto]
    refine (List.Perm.append_left _ ((ih _).cons x)).trans ?_
    have e : stored ++ x :: xs = stored.takeWhile (fun y => Before y x) ++
        (stored.dropWhile (fun y => Before y x) ++ x :: xs) := by
      rw [← List.append_assoc, List.takeWhile_append_dropWhile]
    rw [e]
    exact List.Perm.append_left _ List.perm_middle.symm

theorem mergeInto_sorted (stored xs : List OsmObj)
    (h1 : stored.Pairwise (fun a b => ¬ Before b a)) (h2 : xs.Pairwise (fun a b => ¬ Before b a)) :
    (mergeInto stored xs).Pairwise (fun a b => ¬ Before b a) := by
  induction xs generalizing stored with
  | nil => exact h1
  | cons x xs ih =>
    rw [List.pairwise_cons] at h2
    simp only [mergeInto]
    have hsplit : stored.takeWhile (fun y => Before y x) ++ stored.dropWhile (fun y => Before y x) =
        stored := List.takeWhile_append_dropWhile
    have h1' := h1
    rw [← hsplit, List.pairwise_append] at h1'
    obtain ⟨ht, hd, htd⟩ := h1'
    have hlt : ∀ y ∈ stored.takeWhile (fun y => Before y x), Before y x := by
      intro y hy
      have := List.all_takeWhile (p := fun y => decide (Before y x)) (l := stored)
      rw [List.all_eq_true] at this
      simpa using this y hy
    have hge : ∀ y ∈ stored.dropWhile (fun y => Before y x), ¬ Before y x := by
      cases hdw : stored.dropWhile (fun y => Before y x) with
      | nil => simp
      | cons z zs =>
        rw [hdw, List.pairwise_cons] at hd
        have hz : ¬ Before z x := by
          have := List.head?_dropWhile_not (fun y => decide (Before y x)) stored
          rw [hdw] at this
          simpa using this
        intro y hy
        rcases List.mem_cons.1 hy with rfl | hy
        · exact hz
        · have := hd.1 y hy
          unfold Before at *; omega
    have hmem : ∀ y ∈ mergeInto (stored.dropWhile (fun y => Before y x)) xs, ¬ Before y x := by
      intro y hy
      rcases List.mem_append.1 ((mergeInto_perm _ _).mem_iff.1 hy) with h | h
      · exact hge y h
      · exact h2.1 y h
    rw [List.pairwise_append]
    refine ⟨ht, ?_, ?_⟩
    · rw [List.pairwise_cons]
      exact ⟨hmem, ih _ hd h2.2⟩
    · intro a ha b hb
      rcases List.mem_cons.1 hb with rfl | hb
      · have := hlt a ha; unfold Before at *; omega
      · have := hlt a ha
        have := hmem b hb
        unfold Before at *; omega

/-- Runs of a list that begins with objects of one type. -/
theorem runs_split (t : ObjType) (a b : List OsmObj) (ha : ∀ o ∈ a, o.type = t)
    (hb : ∀ o ∈ b, o.type ≠ t) :
    (runs (a ++ b)).flatMap runCalls = runCalls a ++ (runs b).flatMap runCalls := by
  cases a with
  | nil => simp [runCalls]
  | cons n ns =>
    have hsplit : ∀ (ns : List OsmObj) (n : OsmObj), (∀ o ∈ n :: ns, o.type = t) →
        runs (n :: ns ++ b) = (n :: ns) :: runs b := by
      intro ns
      induction ns with
      | nil =>
        intro n hn
        simp only [List.cons_append, List.nil_append]
        cases b with
        | nil => rfl
        | cons x b =>
          obtain ⟨r, rs, e⟩ := runs_cons_ne x b
          rw [runs, e]
          have hx : ¬ n.type = x.type := by
            rw [hn n (by simp)]; exact fun h => hb x (by simp) h.symm
          simp [hx]
      | cons c ns ih =>
        intro n hn
        have := ih c (fun o ho => hn o (by simp at ho ⊢; tauto))
        simp only [List.cons_append] at this ⊢
        rw [runs, this]
        have : n.type = c.type := by rw [hn n (by simp), hn c (by simp)]
        simp [this]
    rw [hsplit ns n ha]
    simp

/-- Protocol of a file sorted by type. -/
theorem protocol_split (m : Meta) (ns ws rs : List OsmObj) (hn : ∀ o ∈ ns, o.type = .node)
    (hw : ∀ o ∈ ws, o.type = .way) (hr : ∀ o ∈ rs, o.type = .relation) :
    protocol m (ns ++ ws ++ rs) =
      .init m :: (runCalls ns ++ (runCalls ws ++ (runCalls rs ++ [.final]))) := by
  have h3 : (runs rs).flatMap runCalls = runCalls rs := by
    have := runs_split .relation rs [] hr (by simp)
    simpa [runs] using this
  unfold protocol
  rw [List.append_assoc, runs_split .node ns (ws ++ rs) hn (by
      intro o ho
      rcases List.mem_append.1 ho with ho | ho
      · rw [hw o ho]; simp
      · rw [hr o ho]; simp),
    runs_split .way ws rs hw (by intro o ho; rw [hr o ho]; simp), h3]
  simp [List.append_assoc]

theorem applyRun_append (m : Meta) (s : ObjStore) (a b : List Cb) (s' : ObjStore) (out : List Cb)
    (h : a.foldlM (fun (p : ObjStore × List Cb) c => do
      let r ← applyStep m p.1 c
      return (r.1, p.2 ++ r.2)) (s, []) = some (s', out)) :
    applyRun m s (a ++ b) = (applyRun m s' b).map (out ++ ·) := by
  have gen : ∀ (a : List Cb) (s : ObjStore) (pre : List Cb) (s' : ObjStore) (out : List Cb),
      a.foldlM (fun (p : ObjStore × List Cb) c => do
        let r ← applyStep m p.1 c
        return (r.1, p.2 ++ r.2)) (s, pre) = some (s', out) →
      ∃ o, out = pre ++ o ∧ applyRun m s (a ++ b) = (applyRun m s' b).map (o ++ ·) := by
    intro a
    induction a with
    | nil =>
      intro s pre s' out h
      simp only [List.foldlM_nil, pure, Option.some.injEq, Prod.mk.injEq] at h
      obtain ⟨rfl, rfl⟩ := h
      exact ⟨[], by simp, by simp⟩
    | cons c a ih =>
      intro s pre s' out h
      rw [List.foldlM_cons] at h
      cases hc : applyStep m s c with
      | none => simp [hc] at h
      | some r =>
        simp only [hc, Option.bind_eq_bind, Option.bind_some, pure] at h
        obtain ⟨o, ho, hrun⟩ := ih _ _ _ _ h
        refine ⟨r.2 ++ o, by rw [ho]; simp, ?_⟩
        simp only [List.cons_append, applyRun, hc, Option.bind_eq_bind, Option.bind_some, hrun]
        cases applyRun m s' b <;> simp [pure]
  obtain ⟨o, ho, hrun⟩ := gen a s [] s' out h
  simp only [List.nil_append] at ho
  subst ho; exact hrun

/-- The part of the store for a type. (helper for statements and proofs, no counterpart in /repo) -/
def ObjStore.part (s : ObjStore) : ObjType → List OsmObj
  | .node => s.nodes
  | .way => s.ways
  | .relation => s.relations
  | _ => []

/-- Replace the part of the store for a type. (helper for statements and proofs, no counterpart
in /repo) -/
def ObjStore.setPart (s : ObjStore) (t : ObjType) (l : List OsmObj) : ObjStore :=
  match t with
  | .node => { s with nodes := l }
  | .way => { s with ways := l }
  | .relation => { s with relations := l }
  | _ => s

theorem applyStep_obj {os : List OsmObj} (m : Meta) (h : Comparable os) (s : ObjStore)
    (x : OsmObj) (hx : x ∈ os) (hl : ∀ y ∈ s.part x.type, y ∈ os ∧ y.type = x.type) :
    applyStep m s (.obj x) =
      some (s.setPart x.type ((s.part x.type).dropWhile (fun y => Before y x)),
        ((s.part x.type).takeWhile (fun y => Before y x)).map Cb.obj ++ [.obj x]) := by
  cases x <;>
  · simp only [OsmObj.type, ObjStore.part] at hl
    simp only [applyStep, applyFlush_eq h hx _ hl, OsmObj.type, ObjStore.part, ObjStore.setPart]
    rfl

theorem applyStep_after (m : Meta) (s : ObjStore) (x : OsmObj) :
    applyStep m s (.after x.type) =
      some (s.setPart x.type [], (s.part x.type).map Cb.obj ++ [.after x.type]) := by
  cases x <;> rfl

theorem applyStep_before (m : Meta) (s : ObjStore) (t : ObjType) :
    applyStep m s (.before t) = some (s, [.before t]) := rfl

theorem part_setPart (s : ObjStore) (x : OsmObj) (l : List OsmObj) :
    (s.setPart x.type l).part x.type = l := by cases x <;> rfl

theorem setPart_setPart (s : ObjStore) (t : ObjType) (l l' : List OsmObj) :
    (s.setPart t l).setPart t l' = s.setPart t l' := by cases t <;> rfl

/-- Within a run. -/
theorem apply_inside {os : List OsmObj} (m : Meta) (h : Comparable os) (x0 : OsmObj)
    (xs : List OsmObj) (pre : List Cb) (s : ObjStore) (hx : ∀ x ∈ xs, x ∈ os ∧ x.type = x0.type)
    (hl : ∀ y ∈ s.part x0.type, y ∈ os ∧ y.type = x0.type) :
    (xs.map Cb.obj ++ [Cb.after x0.type]).foldlM (fun (p : ObjStore × List Cb) c => do
      let r ← applyStep m p.1 c
      return (r.1, p.2 ++ r.2)) (s, pre) =
    some (s.setPart x0.type [],
      pre ++ ((mergeInto (s.part x0.type) xs).map Cb.obj ++ [.after x0.type])) := by
  induction xs generalizing s pre with
  | nil =>
    simp [applyStep_after, mergeInto]
  | cons x xs ih =>
    obtain ⟨hxo, hxt⟩ := hx x (by simp)
    have hstep := applyStep_obj m h s x hxo (by rw [hxt]; exact hl)
    rw [hxt] at hstep
    simp only [List.map_cons, List.cons_append, List.foldlM_cons, hstep, Option.bind_eq_bind,
      Option.bind_some, pure]
    have hpart : (s.setPart x0.type ((s.part x0.type).dropWhile (fun y => Before y x))).part
        x0.type = (s.part x0.type).dropWhile (fun y => Before y x) := part_setPart _ _ _
    have := ih (pre ++ (((s.part x0.type).takeWhile (fun y => Before y x)).map Cb.obj ++
        [.obj x])) (s.setPart x0.type ((s.part x0.type).dropWhile (fun y => Before y x)))
        (fun z hz => hx z (by simp [hz]))
        (by rw [hpart]; exact fun y hy => hl y ((List.dropWhile_sublist _).mem hy))
    simp only [pure, Option.bind_eq_bind] at this
    rw [this, hpart, setPart_setPart]
    simp [mergeInto]

/-- A whole run of the stream. -/
theorem apply_run {os : List OsmObj} (m : Meta) (h : Comparable os) (t : ObjType)
    (xs : List OsmObj) (s : ObjStore) (rest : List Cb) (hx : ∀ x ∈ xs, x ∈ os ∧ x.type = t)
    (hl : ∀ y ∈ s.part t, y ∈ os ∧ y.type = t) (hne : s.part t ≠ [] → xs ≠ []) :
    applyRun m s (runCalls xs ++ rest) =
      (applyRun m (s.setPart t []) rest).map (runCalls (mergeInto (s.part t) xs) ++ ·) := by
  cases xs with
  | nil =>
    have hp : s.part t = [] := by
      by_contra hc; exact hne hc rfl
    have hs : s.setPart t [] = s := by
      cases t <;> simp_all [ObjStore.part, ObjStore.setPart]
      · cases s; simp_all
      · cases s; simp_all
      · cases s; simp_all
    simp [runCalls, mergeInto, hp, hs]
  | cons x xs =>
    obtain ⟨hxo, rfl⟩ := hx x (by simp)
    have hin := apply_inside m h x (x :: xs) [Cb.before x.type] s hx hl
    have : runCalls (mergeInto (s.part x.type) (x :: xs)) =
        Cb.before x.type :: ((mergeInto (s.part x.type) (x :: xs)).map Cb.obj ++
          [.after x.type]) := by
      cases hm : mergeInto (s.part x.type) (x :: xs) with
      | nil =>
        have := (mergeInto_perm (s.part x.type) (x :: xs)).length_eq
        rw [hm] at this; simp at this
      | cons y ys =>
        have hy : y ∈ s.part x.type ++ x :: xs :=
          (mergeInto_perm (s.part x.type) (x :: xs)).mem_iff.1 (by rw [hm]; simp)
        have hyt : y.type = x.type := by
          rcases List.mem_append.1 hy with hy | hy
          · exact (hl y hy).2
          · exact (hx y hy).2
        simp [runCalls, hyt]
    rw [this]
    refine applyRun_append m s _ rest _ _ ?_
    simp only [runCalls, List.cons_append, List.foldlM_cons, applyStep_before, Option.bind_eq_bind,
      Option.bind_some, pure, List.nil_append]
    simp only [pure, Option.bind_eq_bind, List.cons_append, List.nil_append] at hin
    exact hin

/-- **C37** (partial: the stream must contain at least one object of each type there is in the
store, and all objects must be comparable).  For a stream sorted by type and within a type, and a
store as filled by insertions, the handler passes on the callbacks of a file containing the
objects of both, each exactly once, sorted by type and within a type; with its own meta object. -/
theorem apply_merges_partial (m m' : Meta) (s : ObjStore) (ns ws rs : List OsmObj)
    (hc : Comparable (s.nodes ++ s.ways ++ s.relations ++ (ns ++ ws ++ rs)))
    (hns : ∀ o ∈ s.nodes, o.type = .node) (hws : ∀ o ∈ s.ways, o.type = .way)
    (hrs : ∀ o ∈ s.relations, o.type = .relation)
    (hn : ∀ o ∈ ns, o.type = .node) (hw : ∀ o ∈ ws, o.type = .way)
    (hr : ∀ o ∈ rs, o.type = .relation)
    (sn : s.nodes.Pairwise Before) (sw : s.ways.Pairwise Before)
    (sr : s.relations.Pairwise Before)
    (tn : ns.Pairwise (fun a b => ¬ Before b a)) (tw : ws.Pairwise (fun a b => ¬ Before b a))
    (tr : rs.Pairwise (fun a b => ¬ Before b a))
    (en : s.nodes ≠ [] → ns ≠ []) (ew : s.ways ≠ [] → ws ≠ [])
    (er : s.relations ≠ [] → rs ≠ []) :
    ∃ N W R, applyRun m s (protocol m' (ns ++ ws ++ rs)) = some (protocol m (N ++ W ++ R)) ∧
      N.Perm (s.nodes ++ ns) ∧ W.Perm (s.ways ++ ws) ∧ R.Perm (s.relations ++ rs) ∧
      N.Pairwise (fun a b => ¬ Before b a) ∧ W.Pairwise (fun a b => ¬ Before b a) ∧
      R.Pairwise (fun a b => ¬ Before b a) := by
  have weaken : ∀ l : List OsmObj, l.Pairwise Before → l.Pairwise (fun a b => ¬ Before b a) := by
    intro l hl
    refine hl.imp fun {a b} hab => ?_
    unfold Before at *; omega
  have types : ∀ {t : ObjType} {a b : List OsmObj}, (∀ o ∈ a, o.type = t) →
      (∀ o ∈ b, o.type = t) → ∀ o ∈ mergeInto a b, o.type = t := by
    intro t a b ha hb o ho
    rcases List.mem_append.1 ((mergeInto_perm a b).mem_iff.1 ho) with h | h
    · exact ha o h
    · exact hb o h
  refine ⟨mergeInto s.nodes ns, mergeInto s.ways ws, mergeInto s.relations rs, ?_,
    mergeInto_perm _ _, mergeInto_perm _ _, mergeInto_perm _ _,
    mergeInto_sorted _ _ (weaken _ sn) tn, mergeInto_sorted _ _ (weaken _ sw) tw,
    mergeInto_sorted _ _ (weaken _ sr) tr⟩
  rw [protocol_split m' ns ws rs hn hw hr,
    protocol_split m _ _ _ (types hns hn) (types hws hw) (types hrs hr)]
  simp only [applyRun, applyStep, Option.bind_eq_bind, Option.bind_some]
  rw [apply_run m hc .node ns s _ (fun x hx => ⟨by simp [hx], hn x hx⟩)
    (fun y hy => ⟨by simp only [ObjStore.part] at hy; simp [hy], hns y hy⟩) en]
  rw [apply_run m hc .way ws (s.setPart .node []) _ (fun x hx => ⟨by simp [hx], hw x hx⟩)
    (fun y hy => ⟨by simp only [ObjStore.part, ObjStore.setPart] at hy; simp [hy], hws y hy⟩)
    (by simpa [ObjStore.part, ObjStore.setPart] using ew)]
  rw [apply_run m hc .relation rs ((s.setPart .node []).setPart .way []) _ (fun x hx => ⟨by simp [hx], hr x hx⟩)
    (fun y hy => ⟨by simp only [ObjStore.part, ObjStore.setPart] at hy; simp [hy], hrs y hy⟩)
    (by simpa [ObjStore.part, ObjStore.setPart] using er)]
  simp [applyRun, applyStep, ObjStore.part, ObjStore.setPart, pure]

theorem apply_run' {os : List OsmObj} (m : Meta) (h : Comparable os) (t : ObjType)
    (xs : List OsmObj) (s : ObjStore) (rest : List Cb) (hx : ∀ x ∈ xs, x ∈ os ∧ x.type = t)
    (hl : ∀ y ∈ s.part t, y ∈ os ∧ y.type = t) :
    ∃ s' : ObjStore, (∀ t' : ObjType, t' ≠ t → s'.part t' = s.part t') ∧
      applyRun m s (runCalls xs ++ rest) = (applyRun m s' rest).map
        (runCalls (if xs = [] then [] else mergeInto (s.part t) xs) ++ ·) := by
  by_cases hne : xs = []
  · subst hne
    exact ⟨s, fun _ _ => rfl, by simp [runCalls]⟩
  · refine ⟨s.setPart t [], ?_, ?_⟩
    · intro t' ht'
      cases t <;> cases t' <;> first | exact absurd rfl ht' | rfl
    · rw [if_neg hne]
      exact apply_run m h t xs s rest hx hl (fun _ => hne)

/-- **C37**, without the condition on the types: what is passed on is a file containing the
objects of the stream and those of the store whose type occurs in the stream. -/
theorem apply_merges_occurring (m m' : Meta) (s : ObjStore) (ns ws rs : List OsmObj)
    (hc : Comparable (s.nodes ++ s.ways ++ s.relations ++ (ns ++ ws ++ rs)))
    (hns : ∀ o ∈ s.nodes, o.type = .node) (hws : ∀ o ∈ s.ways, o.type = .way)
    (hrs : ∀ o ∈ s.relations, o.type = .relation)
    (hn : ∀ o ∈ ns, o.type = .node) (hw : ∀ o ∈ ws, o.type = .way)
    (hr : ∀ o ∈ rs, o.type = .relation)
    (sn : s.nodes.Pairwise Before) (sw : s.ways.Pairwise Before)
    (sr : s.relations.Pairwise Before)
    (tn : ns.Pairwise (fun a b => ¬ Before b a)) (tw : ws.Pairwise (fun a b => ¬ Before b a))
    (tr : rs.Pairwise (fun a b => ¬ Before b a)) :
    ∃ N W R, applyRun m s (protocol m' (ns ++ ws ++ rs)) = some (protocol m (N ++ W ++ R)) ∧
      N.Perm ((if ns = [] then [] else s.nodes) ++ ns) ∧
      W.Perm ((if ws = [] then [] else s.ways) ++ ws) ∧
      R.Perm ((if rs = [] then [] else s.relations) ++ rs) ∧
      N.Pairwise (fun a b => ¬ Before b a) ∧ W.Pairwise (fun a b => ¬ Before b a) ∧
      R.Pairwise (fun a b => ¬ Before b a) := by
  have weaken : ∀ l : List OsmObj, l.Pairwise Before → l.Pairwise (fun a b => ¬ Before b a) := by
    intro l hl
    refine hl.imp fun {a b} hab => ?_
    unfold Before at *; omega
  have types : ∀ {t : ObjType} {a b : List OsmObj}, (∀ o ∈ a, o.type = t) →
      (∀ o ∈ b, o.type = t) → ∀ o ∈ (if b = [] then [] else mergeInto a b), o.type = t := by
    intro t a b ha hb o ho
    split at ho
    · simp at ho
    · rcases List.mem_append.1 ((mergeInto_perm a b).mem_iff.1 ho) with h | h
      · exact ha o h
      · exact hb o h
  have perm : ∀ a b : List OsmObj, (if b = [] then [] else mergeInto a b).Perm
      ((if b = [] then [] else a) ++ b) := by
    intro a b
    by_cases h : b = []
    · simp [h]
    · simpa [h] using mergeInto_perm a b
  have sorted : ∀ a b : List OsmObj, a.Pairwise Before → b.Pairwise (fun a b => ¬ Before b a) →
      (if b = [] then [] else mergeInto a b).Pairwise (fun a b => ¬ Before b a) := by
    intro a b ha hb
    by_cases h : b = []
    · simp [h]
    · simpa [h] using mergeInto_sorted a b (weaken a ha) hb
  refine ⟨if ns = [] then [] else mergeInto s.nodes ns, if ws = [] then [] else mergeInto s.ways ws,
    if rs = [] then [] else mergeInto s.relations rs, ?_, perm _ _, perm _ _, perm _ _,
    sorted _ _ sn tn, sorted _ _ sw tw, sorted _ _ sr tr⟩
  rw [protocol_split m' ns ws rs hn hw hr,
    protocol_split m _ _ _ (types hns hn) (types hws hw) (types hrs hr)]
  simp only [applyRun, applyStep, Option.bind_eq_bind, Option.bind_some]
  obtain ⟨s1, k1, e1⟩ := apply_run' m hc .node ns s (runCalls ws ++ (runCalls rs ++ [.final]))
    (fun x hx => ⟨by simp [hx], hn x hx⟩)
    (fun y hy => ⟨by simp only [ObjStore.part] at hy; simp [hy], hns y hy⟩)
  have w1 : s1.part .way = s.ways := k1 .way (by simp)
  have r1 : s1.part .relation = s.relations := k1 .relation (by simp)
  obtain ⟨s2, k2, e2⟩ := apply_run' m hc .way ws s1 (runCalls rs ++ [.final])
    (fun x hx => ⟨by simp [hx], hw x hx⟩)
    (by rw [w1]; exact fun y hy => ⟨by simp [hy], hws y hy⟩)
  have r2 : s2.part .relation = s.relations := (k2 .relation (by simp)).trans r1
  obtain ⟨s3, k3, e3⟩ := apply_run' m hc .relation rs s2 [.final]
    (fun x hx => ⟨by simp [hx], hr x hx⟩)
    (by rw [r2]; exact fun y hy => ⟨by simp [hy], hrs y hy⟩)
  rw [e1, e2, e3, w1, r2]
  simp [applyRun, applyStep, ObjStore.part, pure]

example : applyRun (Meta.new false) ⟨[nv 2 1, nv 9 1], [wv 1 1], []⟩
    (protocol (Meta.new true) [nv 1 1, nv 3 1, wv 7 1]) =
    some (protocol (Meta.new false) [nv 1 1, nv 2 1, nv 3 1, nv 9 1, wv 1 1, wv 7 1]) := by
  decide +kernel

/-- **C37** fails if the stream has no objects of a type that is in the store: these stored
objects are never passed on. -/
theorem apply_loses_objects :
    applyRun (Meta.new false) ⟨[nv 2 1], [], []⟩ (protocol (Meta.new false) [wv 7 1]) =
      some (protocol (Meta.new false) [wv 7 1]) := by
  decide +kernel

end Osmium
