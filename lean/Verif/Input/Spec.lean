import Verif.Input.Model
/-
Specification of the callback protocol (input.hpp:38-76, class comment), independent of the readers.
-/
namespace Osmium.Spec

/-- The maximal runs of objects of the same type. -/
def runs : List OsmObj → List (List OsmObj)
  | [] => []
  | o :: os =>
    match runs os with
    | (x :: r) :: rs => if o.type = x.type then (o :: x :: r) :: rs else [o] :: (x :: r) :: rs
    | _ => [[o]]

/-- What is called for one run. -/
def runCalls : List OsmObj → List Cb
  | [] => []
  | o :: os => .before o.type :: (o :: os).map Cb.obj ++ [.after o.type]

/-- All calls for a file with the objects `os` (at least one). -/
def protocol (m : Meta) (os : List OsmObj) : List Cb :=
  .init m :: (runs os).flatMap runCalls ++ [.final]

/-- States of an observer that checks the protocol: nothing called yet; outside of a run, with the
type of the last one; in a run of objects of some type; `final` has been called; a violation. -/
inductive PState
  | fresh
  | outside (last : Option ObjType)
  | inside (t : ObjType)
  | done
  | bad
deriving DecidableEq

/-- The observer. -/
def PState.step : PState → Cb → PState
  | .fresh, .init _ => .outside none
  | .outside l, .before t => if l = some t then .bad else .inside t
  | .inside t, .obj o => if o.type = t then .inside t else .bad
  | .inside t, .after t' => if t' = t then .outside (some t) else .bad
  | .outside _, .final => .done
  | _, _ => .bad

/-- The calls follow the protocol: `init` first and once; each object in a run of its type, begun by
`before` and ended by `after`, no two runs of the same type in a row; `final` once at the end. -/
def Follows (calls : List Cb) : Prop := calls.foldl PState.step .fresh = .done

/-- The calls are the beginning of a sequence that follows the protocol, without `final`. -/
def FollowsSoFar (calls : List Cb) : Prop :=
  calls.foldl PState.step .fresh ≠ .bad ∧ calls.foldl PState.step .fresh ≠ .done

end Osmium.Spec
