import Verif.Common.Res
import Verif.Input.Model

/-
Model of relations/relation_info.hpp and relations/assembler.hpp.
-/
namespace Osmium

/-- relations/relation_info.hpp 43-120 class `RelationInfo`.  `relation` is `none` for the null
pointer.  (Simplification: the `int` counter is unbounded.) -/
structure RelInfo where
  relation : Option Relation
  members : List (Option OsmObj)
  need : Int
deriving DecidableEq

/-- relations/relation_info.hpp 67-71 default constructor. -/
def RelInfo.empty : RelInfo := ⟨none, [], 0⟩

/-- relations/relation_info.hpp 73-77 constructor from a relation. -/
def RelInfo.ofRelation (r : Relation) : RelInfo := ⟨some r, r.members.map fun _ => none, 0⟩

/-- relations/relation_info.hpp 90-92 `need_member`. -/
def RelInfo.needMember (i : RelInfo) : RelInfo := { i with need := i.need + 1 }

/-- relations/relation_info.hpp 100-105 `add_member`; dereferencing the null pointer fails an
assertion in `boost::shared_ptr`. -/
def RelInfo.addMember (i : RelInfo) (o : OsmObj) (n : Nat) : Res (RelInfo × Bool) :=
  if i.need > 0 then
    match i.relation with
    | none => .error .assertion
    | some r =>
      if n < r.members.length then
        .ok ({ i with members := i.members.set n (some o), need := i.need - 1 },
          decide (i.need - 1 = 0))
      else .error .assertion
  else .error .assertion

/-- relations/relation_info.hpp 117-119 `has_all_members`. -/
def RelInfo.hasAll (i : RelInfo) : Bool := i.need = 0

/-- relations/assembler.hpp 49-82 struct `MemberInfo`.  (Simplification: the 32 bit positions are
unbounded.) -/
structure MemberInfo where
  id : Int
  rel : Nat
  pos : Nat
deriving DecidableEq

/-- The template parameters `N`, `W`, `R` (relations/assembler.hpp 109-121) and the hooks of the
child class: whether `relation` (167-169) calls `add_relation`, and `keep_member` (183-185).
(Simplification: the hooks are functions of the relation and the member.) -/
structure AsmCfg where
  enabled : ObjType → Bool
  accept : Relation → Bool
  keep : Relation → Member → Bool

/-- relations/assembler.hpp 503-520 the data members, and `m_want_types` of the handler for the
second pass (353-361). -/
structure Asm where
  rels : List RelInfo
  infos : ObjType → List MemberInfo
  want : Int

/-- relations/assembler.hpp 408-411: a new assembler. -/
def Asm.new (cfg : AsmCfg) : Asm where
  rels := []
  infos := fun _ => []
  want := (if cfg.enabled .node then 1 else 0) + (if cfg.enabled .way then 1 else 0) +
    (if cfg.enabled .relation then 1 else 0)

/-- relations/assembler.hpp 259-269: which vector an entry goes to. -/
def memberKind (c : Char) : Option ObjType :=
  if c = 'n' then some .node else if c = 'w' then some .way
  else if c = 'r' then some .relation else none

/-- relations/assembler.hpp 254-272: the loop of `add_relation` over the members from number `n`
on. -/
def addMembers (keep : Member → Bool) (rel : Nat) :
    Nat → List Member → (ObjType → List MemberInfo) → RelInfo → (ObjType → List MemberInfo) × RelInfo
  | _, [], infos, i => (infos, i)
  | n, m :: ms, infos, i =>
    if keep m then
      addMembers keep rel (n + 1) ms
        (fun t => if memberKind m.type = some t then infos t ++ [⟨m.ref, rel, n⟩] else infos t)
        i.needMember
    else addMembers keep rel (n + 1) ms infos i

/-- relations/assembler.hpp 252-274 `add_relation`. -/
def Asm.addRelation (cfg : AsmCfg) (s : Asm) (r : Relation) : Asm :=
  let p := addMembers (cfg.keep r) s.rels.length 0 r.members s.infos (RelInfo.ofRelation r)
  { s with rels := s.rels ++ [p.2], infos := p.1 }

/-- relations/assembler.hpp 322-342 class `HandlerPass1`: the state when `after_relations` is
called or at the end, and whether it was called. -/
def Asm.pass1 (cfg : AsmCfg) (s : Asm) : List Cb → Asm × Bool
  | [] => (s, false)
  | .obj (.relation r) :: cs => Asm.pass1 cfg (if cfg.accept r then s.addRelation cfg r else s) cs
  | .after .relation :: _ => (s, true)
  | _ :: cs => Asm.pass1 cfg s cs

/-- relations/assembler.hpp 288-292 `sort_member_infos`: `std::sort` gives some sorted
permutation of each vector. -/
def Asm.Sorts (s s' : Asm) : Prop :=
  s'.rels = s.rels ∧ s'.want = s.want ∧
  ∀ t, (s'.infos t).Perm (s.infos t) ∧ (s'.infos t).Pairwise (fun a b => a.id ≤ b.id)

/-- relations/assembler.hpp 338-341: the state after the first pass. -/
def Asm.AfterPass1 (cfg : AsmCfg) (calls : List Cb) (s : Asm) : Prop :=
  let p := (Asm.new cfg).pass1 cfg calls
  if p.2 then p.1.Sorts s else s = p.1

/-- What can be observed in the second pass: the hooks and the calls on the nested handler.
(relations/assembler.hpp 186-240 and 347-482) -/
inductive AsmEvent
  | complete (r : Relation) (members : List (Option OsmObj))
  | notInAny (o : OsmObj)
  | allAvailable
  | next (c : Cb)
deriving DecidableEq

/-- relations/assembler.hpp 373 `std::equal_range` on a sorted vector. -/
def equalRange (id : Int) (l : List MemberInfo) : List MemberInfo :=
  (l.dropWhile (fun i => i.id < id)).takeWhile (fun i => ¬ id < i.id)

/-- relations/assembler.hpp 380-389: one turn of the loop of `find_and_add_object`. -/
def addOne (o : OsmObj) (rels : List RelInfo) (i : MemberInfo) : Res (List RelInfo × List AsmEvent) :=
  if i.id = o.obj.id then
    match rels[i.rel]? with
    | none => .error .assertion
    | some ri =>
      match ri.relation with
      | none => .error .assertion
      | some r =>
        if i.pos < r.members.length then do
          let p ← ri.addMember o i.pos
          if p.2 then return (rels.set i.rel RelInfo.empty, [.complete r p.1.members])
          else return (rels.set i.rel p.1, [])
        else .error .assertion
  else .error .assertion

/-- relations/assembler.hpp 380-389 the loop. -/
def addAll (o : OsmObj) : List RelInfo → List MemberInfo → Res (List RelInfo × List AsmEvent)
  | rels, [] => .ok (rels, [])
  | rels, i :: is => do
    let p ← addOne o rels i
    let q ← addAll o p.1 is
    return (q.1, p.2 ++ q.2)

/-- relations/assembler.hpp 348-484 class `HandlerPass2`: one callback. -/
def Asm.step (cfg : AsmCfg) (s : Asm) (c : Cb) : Res (Asm × List AsmEvent) :=
  match c with
  | .obj o =>
    if cfg.enabled o.type then
      match equalRange o.obj.id (s.infos o.type) with
      | [] => .ok (s, [.notInAny o, .next c])
      | i :: is => do
        let p ← addAll o s.rels (i :: is)
        return ({ s with rels := p.1 }, p.2 ++ [.next c])
    else .ok (s, [.next c])
  | .after t =>
    if cfg.enabled t then
      .ok ({ s with infos := fun t' => if t' = t then [] else s.infos t', want := s.want - 1 },
        (if s.want - 1 = 0 then [.allAvailable] else []) ++ [.next c])
    else .ok (s, [.next c])
  | c => .ok (s, [.next c])

/-- The second pass. (relations/assembler.hpp 347-482, for all callbacks) -/
def Asm.pass2 (cfg : AsmCfg) : Asm → List Cb → Res (Asm × List AsmEvent)
  | s, [] => .ok (s, [])
  | s, c :: cs => do
    let p ← s.step cfg c
    let q ← Asm.pass2 cfg p.1 cs
    return (q.1, p.2 ++ q.2)

/-- relations/assembler.hpp 243-245 `clean_assembled_relations`. -/
def Asm.clean (s : Asm) : Asm := { s with rels := s.rels.filter fun i => ¬ i.hasAll }

end Osmium
