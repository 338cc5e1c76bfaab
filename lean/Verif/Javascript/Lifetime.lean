import Verif.Common.Res
import Mathlib.Logic.Function.Basic
import Mathlib.Tactic.ByContra

/-
C97: the objects a script has, the C++ objects behind them, and the garbage collector.
-/
namespace Osmium

/-- What a Javascript object has in its internal field. (javascript/template.hpp 58-69) -/
inductive JsWrapped
  /-- the address of an OSM object or of a part of one (`create_instance`) -/
  | inside (k : Nat)
  /-- the address of a geometry made for this Javascript object (`create_persistent_instance`) -/
  | geometry (p : Nat)
deriving DecidableEq, Repr

/-- The OSM objects that exist; the geometries that exist, each with the OSM object it refers to, if any
(geometry/from_way.hpp 60: the nodes of a way, geometry/multipolygon.hpp 101: an area; points and null geometries refer
to nothing); the Javascript objects that exist; which of them the script can reach; and the object whose callback is
running. -/
structure ScriptWorld where
  objects : Nat → Bool
  geoms : Nat → Option (Option Nat)
  values : Nat → Option JsWrapped
  held : Nat → Bool
  current : Option Nat
  nextGeom : Nat
  nextValue : Nat

/-- At the beginning the objects in `objs` exist. (no counterpart in /repo) -/
def ScriptWorld.init (objs : Nat → Bool) : ScriptWorld :=
  ⟨objs, fun _ => none, fun _ => none, fun _ => false, none, 0, 0⟩

/-- What can happen. (javascript/template.hpp 64-135, javascript/wrapper/osm.hpp 42-330) -/
inductive ScriptOp
  /-- the callback for the object is called (javascript/handler.hpp 287-366) -/
  | callback (k : Nat)
  /-- ... and returns -/
  | returned
  /-- the last handler that has the object forgets it -/
  | release (k : Nat)
  /-- the script gets `tags`, `nodes`, `members` or one of the members of an object (wrapper/osm.hpp 144, 207, 241, 287) -/
  | part (v : Nat)
  /-- the script gets a geometry: `refers` unless it is a point or null geometry (wrapper/osm.hpp 226-306) -/
  | geom (v : Nat) (refers : Bool)
  /-- the script uses any other property or function -/
  | read (v : Nat)
  /-- the script cannot reach the Javascript object any more -/
  | drop (v : Nat)
  /-- the garbage collector finds it -/
  | collect (v : Nat)
deriving DecidableEq, Repr

/-- The Javascript object is new, and the script has it. (javascript/template.hpp 58-62) -/
def ScriptWorld.wrap (w : ScriptWorld) (x : JsWrapped) : ScriptWorld :=
  { w with values := Function.update w.values w.nextValue (some x), held := Function.update w.held w.nextValue true,
           nextValue := w.nextValue + 1 }

/-- Whether what is behind the address can be used. (javascript/template.hpp 99-122) -/
def ScriptWorld.usable (w : ScriptWorld) : JsWrapped → Bool
  | .inside k => w.objects k
  | .geometry p =>
    match w.geoms p with
    | none => false
    | some none => true
    | some (some k) => w.objects k

/-- javascript/template.hpp 58-80, javascript/wrapper/osm.hpp, javascript/handler.hpp 287-366: no result if something is
used that does not exist any more. -/
def ScriptWorld.step (w : ScriptWorld) : ScriptOp → Option ScriptWorld
  | .callback k => if w.objects k then some { w.wrap (.inside k) with current := some k } else none
  | .returned => some { w with current := none }
  | .release k => some { w with objects := Function.update w.objects k false }
  | .part v =>
    match w.values v with
    | some (.inside k) => if w.objects k then some (w.wrap (.inside k)) else none
    | _ => none
  | .geom v refers =>
    match w.values v with
    | some (.inside k) =>
      if w.objects k then
        some ({ w with geoms := Function.update w.geoms w.nextGeom (some (if refers then some k else none)),
                       nextGeom := w.nextGeom + 1 }.wrap (.geometry w.nextGeom))
      else none
    | _ => none
  | .read v =>
    match w.values v with
    | some x => if w.usable x then some w else none
    | none => none
  | .drop v => some { w with held := Function.update w.held v false }
  | .collect v =>
    match w.values v with
    | some (.inside _) => some { w with values := Function.update w.values v none }
    | some (.geometry p) =>
      if (w.geoms p).isSome then
        some { w with values := Function.update w.values v none, geoms := Function.update w.geoms p none }
      else none
    | none => none

/-- A whole history. (no counterpart in /repo) -/
def ScriptWorld.run (w : ScriptWorld) : List ScriptOp → Option ScriptWorld
  | [] => some w
  | op :: ops =>
    match w.step op with
    | none => none
    | some w' => w'.run ops

namespace Spec

/-- What can be said about a history without knowing what the program does: the objects that exist, the one whose
callback is running, and for every Javascript object made so far whether it is a geometry, the object it was made
from and whether it needs that object. (specification, no counterpart in /repo) -/
structure ScriptView where
  exist : Nat → Bool
  current : Option Nat
  made : List (Bool × Nat × Bool)
  held : Nat → Bool
  gone : Nat → Bool

/-- What follows from an event. (specification, no counterpart in /repo) -/
def ScriptView.step (s : ScriptView) : ScriptOp → ScriptView
  | .callback k => { s with current := some k, made := s.made ++ [(false, k, true)],
                            held := Function.update s.held s.made.length true }
  | .returned => { s with current := none }
  | .release k => { s with exist := Function.update s.exist k false }
  | .part v => { s with made := s.made ++ [(false, ((s.made[v]?).getD (false, 0, false)).2.1, true)],
                        held := Function.update s.held s.made.length true }
  | .geom v refers => { s with made := s.made ++ [(true, ((s.made[v]?).getD (false, 0, false)).2.1, refers)],
                               held := Function.update s.held s.made.length true }
  | .read _ => s
  | .drop v => { s with held := Function.update s.held v false }
  | .collect v => { s with gone := Function.update s.gone v true }

/-- The rules: callbacks are for objects that exist, one after the other; an object does not vanish during its
callback; the garbage collector finds only objects the script cannot reach, and each once; and the script uses only
what it can reach, and no object, part of an object or geometry of a way or area from an earlier callback.
(specification, no counterpart in /repo) -/
def Permitted (s : ScriptView) : ScriptOp → Prop
  | .callback k => s.current = none ∧ s.exist k
  | .returned => True
  | .release k => s.current ≠ some k
  | .part v => s.held v ∧ ∃ k, s.made[v]? = some (false, k, true) ∧ s.current = some k
  | .geom v _ => s.held v ∧ ∃ k, s.made[v]? = some (false, k, true) ∧ s.current = some k
  | .read v => s.held v ∧ ∃ g k n, s.made[v]? = some (g, k, n) ∧ (n = true → s.current = some k)
  | .drop _ => True
  | .collect v => v < s.made.length ∧ s.held v = false ∧ s.gone v = false

/-- A history by these rules. (specification, no counterpart in /repo) -/
def AllPermitted (s : ScriptView) : List ScriptOp → Prop
  | [] => True
  | op :: ops => Permitted s op ∧ AllPermitted (s.step op) ops

end Spec

end Osmium
