import Verif.Handler.Chain
import Verif.Handler.Coordinates
import Verif.Input.Spec

/-
C81: which functions of a script are called, javascript/handler.hpp.

What a script does is the environment: a script has a state (its variables and objects), functions can be
called in a state, and calling one gives another state.  Exceptions of scripts are ignored by the handler
(277, 284, ...: the result of `Call` is not looked at), so they are part of what a function does.
-/
namespace Osmium

/-- What `this` is in a call of a function: the function itself (javascript/handler.hpp 276, 283, ...), or the
object (290-291, 316-317, 342-343, 366-367). -/
inductive JsThis (F : Type)
  | function (f : F)
  | object (o : OsmObj)
  | area (a : AreaArg)
deriving DecidableEq, Repr

/-- The script engine with a script: `props s loc name` is the value of a property if this is a function,
`callbacks s` is the object that is the value of `Osmium.Callbacks`, `call s f this` is the state after a call,
`load s` is the state after the included files and the main file have been run (javascript/handler.hpp
173-210). -/
structure Engine (σ Loc F : Type) where
  props : σ → Loc → String → Option F
  callbacks : σ → Loc
  call : σ → F → JsThis F → σ
  load : σ → σ

/-- javascript/handler.hpp 97-110 struct `js_cb`; `none` is the empty handle. -/
structure JsCb (F : Type) where
  init : Option F
  beforeNodes : Option F
  node : Option F
  afterNodes : Option F
  beforeWays : Option F
  way : Option F
  afterWays : Option F
  beforeRelations : Option F
  relation : Option F
  afterRelations : Option F
  area : Option F
  finish : Option F
deriving DecidableEq, Repr

/-- javascript/handler.hpp 214-267: the functions are looked up once, at the end of the constructor. -/
def captureCb {F : Type} (get : String → Option F) : JsCb F where
  init := get "init"
  beforeNodes := get "before_nodes"
  node := get "node"
  afterNodes := get "after_nodes"
  beforeWays := get "before_ways"
  way := get "way"
  afterWays := get "after_ways"
  beforeRelations := get "before_relations"
  relation := get "relation"
  afterRelations := get "after_relations"
  area := get "area"
  finish := get "end"

/-- javascript/handler.hpp 154-268: the constructor.  The object with the callbacks is looked up at line 170,
before the scripts are run, the functions in it afterwards. -/
def jsConstruct {σ Loc F : Type} (e : Engine σ Loc F) (s : σ) : σ × JsCb F :=
  let callbacksObject := e.callbacks s
  let s' := e.load s
  (s', captureCb (e.props s' callbacksObject))

/-- javascript/handler.hpp 275-277, 281-284 etc.: a call of a function if there is one, with the function as
`this`. -/
def callPlain {σ Loc F : Type} (e : Engine σ Loc F) (f : Option F) (s : σ) : σ :=
  match f with
  | some f => e.call s f (.function f)
  | none => s

/-- javascript/handler.hpp 288-292 etc.: a call of a function if there is one, with an object as `this`. -/
def callWith {σ Loc F : Type} (e : Engine σ Loc F) (f : Option F) (this : JsThis F) (s : σ) : σ :=
  match f with
  | some f => e.call s f this
  | none => s

/-- javascript/handler.hpp 274-380: the methods.  Objects are given to scripts as const objects without setters,
so they are not changed; no method throws.  (Exceptions of C++ that an access to a property throws are the
subject of Wrapper.lean.) -/
def jsHandler {σ Loc F : Type} (e : Engine σ Loc F) (cb : JsCb F) : HandlerM σ where
  step s
    | .init m => (callPlain e cb.init s, .init m, false)
    | .before .node => (callPlain e cb.beforeNodes s, .before .node, false)
    | .obj (.node n) => (callWith e cb.node (.object (.node n)) s, .obj (.node n), false)
    | .after .node => (callPlain e cb.afterNodes s, .after .node, false)
    | .before .way => (callPlain e cb.beforeWays s, .before .way, false)
    | .obj (.way w) => (callWith e cb.way (.object (.way w)) s, .obj (.way w), false)
    | .after .way => (callPlain e cb.afterWays s, .after .way, false)
    | .before .relation => (callPlain e cb.beforeRelations s, .before .relation, false)
    | .obj (.relation r) => (callWith e cb.relation (.object (.relation r)) s, .obj (.relation r), false)
    | .after .relation => (callPlain e cb.afterRelations s, .after .relation, false)
    | .final => (callPlain e cb.finish s, .final, false)
    | c => (s, c, false)
  area s a := (callWith e cb.area (.area a) s, a, false)

namespace Spec

/-- The name under which a script defines the function for a call. (specification, no counterpart in /repo) -/
def callbackName : HCall → String
  | .cb (.init _) => "init"
  | .cb (.before t) => "before_" ++ plural t
  | .cb (.obj o) => singular o.type
  | .cb (.after t) => "after_" ++ plural t
  | .cb .final => "end"
  | .area _ => "area"
where
  singular : ObjType → String
    | .node => "node"
    | .way => "way"
    | .relation => "relation"
    | .area => "area"
    | .unknown => "unknown"
  plural (t : ObjType) : String := singular t ++ "s"

/-- What `this` is to be in the function: the object, if the call is for an object, otherwise the function.
(specification, no counterpart in /repo) -/
def receiver {F : Type} (f : F) : HCall → JsThis F
  | .cb (.obj o) => .object o
  | .area a => .area a
  | _ => .function f

/-- A script that has, for some names, a function: it is called for each call, in order. (specification, no
counterpart in /repo) -/
def called {σ Loc F : Type} (e : Engine σ Loc F) (defined : String → Option F) (s : σ) (calls : List HCall) : σ :=
  calls.foldl (fun s c =>
    match defined (callbackName c) with
    | some f => e.call s f (receiver f c)
    | none => s) s

end Spec
open Spec

theorem jsHandler_call {σ Loc F : Type} (e : Engine σ Loc F) (get : String → Option F) (s : σ) (c : HCall)
    (hc : isMethod c) :
    (jsHandler e (captureCb get)).call s c =
      ((match get (callbackName c) with
        | some f => e.call s f (receiver f c)
        | none => s), c, false) := by
  match c, hc with
  | .area a, _ => rfl
  | .cb (.init m), _ => rfl
  | .cb .final, _ => rfl
  | .cb (.obj (.node n)), _ => rfl
  | .cb (.obj (.way n)), _ => rfl
  | .cb (.obj (.relation n)), _ => rfl
  | .cb (.before .node), _ => rfl
  | .cb (.before .way), _ => rfl
  | .cb (.before .relation), _ => rfl
  | .cb (.after .node), _ => rfl
  | .cb (.after .way), _ => rfl
  | .cb (.after .relation), _ => rfl
  | .cb (.before .area), h => simp [isMethod] at h
  | .cb (.before .unknown), h => simp [isMethod] at h
  | .cb (.after .area), h => simp [isMethod] at h
  | .cb (.after .unknown), h => simp [isMethod] at h

theorem jsHandler_run {σ Loc F : Type} (e : Engine σ Loc F) (get : String → Option F) (s : σ) (calls : List HCall)
    (hc : ∀ c ∈ calls, isMethod c) :
    (jsHandler e (captureCb get)).runAll s calls = (called e get s calls, calls, false) := by
  induction calls generalizing s with
  | nil => rfl
  | cons c cs ih =>
    rw [HandlerM.runAll, jsHandler_call e get s c (hc c (by simp))]
    dsimp only
    rw [if_neg (by decide), ih _ (fun x hx => hc x (by simp [hx]))]
    rfl

/-- **C81** (partial: for scripts that do not replace the object `Osmium.Callbacks`).  For every script and every
sequence of calls the handler gets: for each call, in order, the function with the name for this call that
`Osmium.Callbacks` has after the script was loaded is called, with the object as `this`; the calls for which
there is no function have no effect; objects are not changed and reading is not stopped. -/
theorem script_called_partial {σ Loc F : Type} (e : Engine σ Loc F) (s : σ) (calls : List HCall)
    (hc : ∀ c ∈ calls, isMethod c) (hkeep : e.callbacks (e.load s) = e.callbacks s) :
    let defined := e.props (e.load s) (e.callbacks (e.load s))
    let h := jsConstruct e s
    (jsHandler e h.2).runAll h.1 calls = (called e defined (e.load s) calls, calls, false) := by
  intro defined h
  have : h = (e.load s, captureCb defined) := by
    simp only [h, defined, jsConstruct, hkeep]
  rw [this]
  exact jsHandler_run e defined (e.load s) calls hc

/-- What is missing: if the script replaces the object, the functions in the new object are never called: the
run is the same whatever they are.  Here for every script that leaves the original object without functions. -/
theorem script_replaced_callbacks {σ Loc F : Type} (e : Engine σ Loc F) (s : σ) (calls : List HCall)
    (hc : ∀ c ∈ calls, isMethod c) (hnone : ∀ name, e.props (e.load s) (e.callbacks s) name = none) :
    let h := jsConstruct e s
    (jsHandler e h.2).runAll h.1 calls = (e.load s, calls, false) := by
  intro h
  have h0 : ∀ (calls : List HCall) (s' : σ), called e (fun _ => none) s' calls = s' := by
    intro calls s'
    induction calls with
    | nil => rfl
    | cons c cs ih => exact ih
  have : h = (e.load s, captureCb fun _ => none) := by
    simp only [h, jsConstruct]
    rw [show e.props (e.load s) (e.callbacks s) = fun _ => none from funext hnone]
  rw [this, jsHandler_run e _ _ calls hc, h0]

/-- Functions defined or changed while objects are read have no effect on what is called: two engines that are
the same while the script is loaded, and whose functions do the same, run the same, whatever properties they
show afterwards. -/
theorem script_captured_once {σ Loc F : Type} (e e' : Engine σ Loc F) (s : σ) (calls : List HCall)
    (h1 : e'.load = e.load) (h2 : e'.call = e.call) (h3 : e'.callbacks s = e.callbacks s)
    (h4 : e'.props (e.load s) (e.callbacks s) = e.props (e.load s) (e.callbacks s)) :
    (jsHandler e' (jsConstruct e' s).2).runAll (jsConstruct e' s).1 calls =
      (jsHandler e (jsConstruct e s).2).runAll (jsConstruct e s).1 calls := by
  have a : jsConstruct e' s = jsConstruct e s := by simp only [jsConstruct, h1, h3, h4]
  have b : ∀ cb, jsHandler e' cb = jsHandler e cb := by
    intro cb
    unfold jsHandler callPlain callWith
    rw [h2]
  rw [a, b]

/-! ### A script with the location handler in front -/

/-- osmjs/osmjs.cpp 257-263: what the script gets behind the location handler. -/
def osmjsOnePass {σ Loc F S T : Type} (e : Engine σ Loc F) (s : σ) (pos : IdStore S Position)
    (neg : IdStore T Position) (calls : List Cb) : Res σ := do
  let h := jsConstruct e s
  let out ← cfwRun pos neg (pos.empty, neg.empty) calls
  return ((jsHandler e h.2).run h.1 out).1

theorem runAll_cb {σ : Type} (h : HandlerM σ) (s : σ) (cs : List Cb) :
    h.runAll s (cs.map .cb) = ((h.run s cs).1, (h.run s cs).2.1.map .cb, (h.run s cs).2.2) := by
  induction cs generalizing s with
  | nil => rfl
  | cons c cs ih =>
    simp only [List.map_cons, HandlerM.runAll, HandlerM.run, HandlerM.call, ih]
    split <;> rfl

/-- **C81.**  With a location store, the functions of the script for ways see each way with the positions its
nodes have in the file before it, everything else as in the file.  For all scripts (as above), all calls with
ids that can be negated and all stores that are faithful (C28-C31). -/
theorem script_located_partial {σ Loc F S T : Type} (e : Engine σ Loc F) (s : σ)
    {pos : IdStore S Position} {neg : IdStore T Position}
    {okp okn : List (Nat × Position) → Prop} {up un : Nat → Res Position} {unset : Position}
    (fp : Faithful pos okp up) (fn : Faithful neg okn un)
    (calls : List Cb) (hm : ∀ c ∈ calls, isMethod (.cb c)) (hids : NegatableIds calls)
    (hokp : ∀ k, okp (posOps (calls.take k))) (hokn : ∀ k, okn (negOps (calls.take k)))
    (hu : ∀ k w, calls[k]? = some (.obj (.way w)) → ∀ wn ∈ w.nodes,
      NoNode (calls.take k) wn.ref →
      (if 0 ≤ wn.ref then up wn.ref.toNat else un (-wn.ref).toNat) = .ok unset)
    (hkeep : e.callbacks (e.load s) = e.callbacks s) :
    ∃ seen : List Cb, seen.length = calls.length ∧
      (∀ (k : Nat) (c : Cb), calls[k]? = some c → ∃ c', seen[k]? = some c' ∧ CfwEffect (calls.take k) unset c c') ∧
      osmjsOnePass e s pos neg calls =
        .ok (called e (e.props (e.load s) (e.callbacks (e.load s))) (e.load s) (seen.map .cb)) := by
  obtain ⟨out, h1, h2, h3⟩ := coordinates_for_ways fp fn calls hids hokp hokn hu
  refine ⟨out, h2, h3, ?_⟩
  have hm' : ∀ c ∈ out.map HCall.cb, isMethod c := by
    intro c hc
    obtain ⟨d, hd, rfl⟩ := List.mem_map.1 hc
    obtain ⟨k, hk, hk2⟩ := List.getElem_of_mem hd
    have hk' : k < calls.length := by omega
    obtain ⟨c', g1, g2⟩ := h3 k calls[k] (List.getElem?_eq_getElem hk')
    rw [List.getElem?_eq_getElem hk, hk2] at g1
    cases g1
    have hmc := hm calls[k] (List.getElem_mem hk')
    generalize calls[k] = x at g2 hmc
    cases x with
    | obj o =>
      cases o with
      | way w => obtain ⟨w', rfl, -⟩ := g2; trivial
      | node n => rw [show d = _ from g2]; exact hmc
      | relation n => rw [show d = _ from g2]; exact hmc
    | init m => rw [show d = _ from g2]; exact hmc
    | before t => rw [show d = _ from g2]; exact hmc
    | after t => rw [show d = _ from g2]; exact hmc
    | final => rw [show d = _ from g2]; exact hmc
  have key := script_called_partial e s (out.map HCall.cb) hm' hkeep
  dsimp only at key
  rw [runAll_cb] at key
  unfold osmjsOnePass
  rw [h1]
  exact congrArg Except.ok (congrArg Prod.fst key)

/-! ### Examples -/

/-- A script that counts: functions are numbers, the state has a log of the functions called.
(data for the examples, no counterpart in /repo) -/
private def demoEngine (replaces : Bool) : Engine (List (Nat × JsThis Nat) × Nat) Nat Nat where
  props s loc name :=
    if loc = s.2 then (if name = "node" then some 1 else if name = "end" then some 2
      else if name = "before_ways" then some 3 else none) else none
  callbacks s := s.2
  call s f this := (s.1 ++ [(f, this)], s.2)
  load s := (s.1, if replaces then s.2 + 1 else s.2)

/-- Data for the examples, no counterpart in /repo. -/
private def demoNode : Node := ⟨{ Obj.new with id := 1 }, ⟨5, 6⟩⟩

/-- Data for the examples, no counterpart in /repo. -/
private def demoScript : List HCall :=
  [.cb (.init (Meta.new false)), .cb (.before .node), .cb (.obj (.node demoNode)), .cb (.after .node),
   .cb (.before .way), .cb (.after .way), .cb .final]

example : (demoEngine false).callbacks ((demoEngine false).load ([], 0)) = (demoEngine false).callbacks ([], 0) ∧
    (called (demoEngine false) ((demoEngine false).props ([], 0) 0) ([], 0) demoScript).1 =
      [(1, .object (.node demoNode)), (3, .function 3), (2, .function 2)] := by
  decide +kernel

/-- Data for the examples, no counterpart in /repo. -/
private def demoWay (p : Position) : Way := ⟨{ Obj.new with id := 9 }, [⟨1, p⟩]⟩

/-- Data for the examples, no counterpart in /repo. -/
private def demoFile : List Cb := [.obj (.node demoNode), .obj (.way (demoWay .undef))]

/-- An engine with a function for ways, behind the location handler. (data for the examples, no
counterpart in /repo) -/
private def wayEngine : Engine (List (Nat × JsThis Nat) × Nat) Nat Nat :=
  { demoEngine false with props := fun _ _ name => if name = "way" then some 7 else none }

/-- The hypotheses of `script_located_partial` and what the script sees. -/
example : (∀ c ∈ demoFile, isMethod (.cb c)) ∧ NegatableIds demoFile ∧
    (∀ k, RoomToGrow 10 (posOps (demoFile.take k))) ∧ (∀ k, RoomToGrow 10 (negOps (demoFile.take k))) ∧
    (osmjsOnePass wayEngine ([], 0) (sparseTable Position .undef 10) (sparseTable Position .undef 10) demoFile).toOption.map (·.1) =
      some [(7, .object (.way (demoWay ⟨5, 6⟩)))] := by
  refine ⟨?_, ?_, ?_, ?_, by decide +kernel⟩
  · intro c hc
    simp only [demoFile, List.mem_cons, List.not_mem_nil, or_false] at hc
    rcases hc with rfl | rfl <;> trivial
  · simp [NegatableIds, demoFile, demoNode, demoWay, NegatableId]
  · intro k o ho
    obtain ⟨n, hn, h0, rfl⟩ := mem_posOps.1 ho
    have hn := List.mem_of_mem_take hn
    simp only [demoFile, List.mem_cons, Cb.obj.injEq, OsmObj.node.injEq, reduceCtorEq, List.not_mem_nil, or_false] at hn
    subst hn
    simp [demoNode]
  · intro k o ho
    obtain ⟨n, hn, h0, rfl⟩ := mem_negOps.1 ho
    have hn := List.mem_of_mem_take hn
    simp only [demoFile, List.mem_cons, Cb.obj.injEq, OsmObj.node.injEq, reduceCtorEq, List.not_mem_nil, or_false] at hn
    subst hn
    simp [demoNode] at h0

/-- A script that replaces the object: nothing is called. -/
example : (∀ name, (demoEngine true).props ((demoEngine true).load ([], 0)) ((demoEngine true).callbacks ([], 0)) name = none) ∧
    (demoEngine true).props ((demoEngine true).load ([], 0)) ((demoEngine true).callbacks ((demoEngine true).load ([], 0))) "node" = some 1 ∧
    ((jsHandler (demoEngine true) (jsConstruct (demoEngine true) ([], 0)).2).runAll (jsConstruct (demoEngine true) ([], 0)).1 demoScript).1.1 = [] := by
  refine ⟨fun name => rfl, ?_, ?_⟩ <;> decide +kernel

end Osmium
