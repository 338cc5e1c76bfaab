import Verif.Relations.Model
import Verif.Handler.Debug

/-
The example program osmium_relation_members: all relations of a file with the tags of their members.
-/
namespace Osmium

/-- examples/osmium_relation_members.cpp 19-21, 66-72: members of all types are wanted, all relations are added and
all members kept. -/
def membersCfg : AsmCfg := ⟨fun t => t = .node ∨ t = .way ∨ t = .relation, fun _ => true, fun _ _ => true⟩

/-- examples/osmium_relation_members.cpp 28-30, 50-52: the lines for tags. -/
def dumpTags (indent : List Char) (tags : TagList) : List Line :=
  tags.map fun t => indent ++ t.key.toList ++ ['='] ++ t.value.toList

/-- examples/osmium_relation_members.cpp 36-46: nothing is written for other types. -/
def dumpType (c : Char) : List Char :=
  if c = 'n' then txt "node" else if c = 'w' then txt "way" else if c = 'r' then txt "relation" else []

/-- examples/osmium_relation_members.cpp 35-56: the lines for member number `i`. -/
def dumpMember (i : Nat) (m : Member) (o : Option OsmObj) : List Line :=
  let head := txt "  [" ++ Text.natDec i ++ txt "] Member " ++ dumpType m.type ++ [' '] ++ Text.intDec m.ref ++
    txt " with role '" ++ m.role.toList ++ ['\'']
  match o with
  | some o => head :: dumpTags (txt "      ") o.obj.tags
  | none => [head ++ txt " (NOT IN INPUT FILE)"]

/-- examples/osmium_relation_members.cpp 32-57: the loop over the members from number `i` on; using the vector
outside of its size is undefined behaviour. (Simplification: `int i` is unbounded.) -/
def dumpMembers (found : List (Option OsmObj)) : Nat → List Member → Res (List Line)
  | _, [] => .ok []
  | i, m :: ms =>
    match found[i]? with
    | none => .error .ub
    | some o =>
      match dumpMembers found (i + 1) ms with
      | .error e => .error e
      | .ok ls => .ok (dumpMember i m o ++ ls)

/-- examples/osmium_relation_members.cpp 26-59 `dump_relation`. -/
def dumpRelation (info : RelInfo) (complete : Bool) : Res (List Line) :=
  match info.relation with
  | none => .error .assertion
  | some r =>
    match dumpMembers info.members 0 r.members with
    | .error e => .error e
    | .ok ls => .ok ([txt "Relation " ++ Text.intDec r.obj.id ++ (if complete then [] else txt " (INCOMPLETE)")] ++
        dumpTags (txt "  ") r.obj.tags ++ ls ++ [[]])

/-- examples/osmium_relation_members.cpp 80-82: the loop over the relations. -/
def dumpAll : List RelInfo → Res (List Line)
  | [] => .ok []
  | i :: is =>
    match dumpRelation i false, dumpAll is with
    | .ok a, .ok b => .ok (a ++ b)
    | .error e, _ => .error e
    | .ok _, .error e => .error e

/-- examples/osmium_relation_members.cpp 74-83 the hooks `complete_relation` and `all_members_available`, for what
the assembler does for one callback.  (`all_members_available` is only called after everything else that the
assembler does with its state for a callback.) -/
def membersHooks (s : Asm) : List AsmEvent → Res (Asm × List Line)
  | [] => .ok (s, [])
  | .complete r ms :: es =>
    match dumpRelation ⟨some r, ms, 0⟩ true with
    | .error e => .error e
    | .ok a =>
      match membersHooks s es with
      | .error e => .error e
      | .ok (s, b) => .ok (s, a ++ b)
  | .allAvailable :: es =>
    match dumpAll s.clean.rels with
    | .error e => .error e
    | .ok a =>
      match membersHooks s.clean es with
      | .error e => .error e
      | .ok (s, b) => .ok (s, a ++ b)
  | _ :: es => membersHooks s es

/-- The second pass. (examples/osmium_relation_members.cpp 105-106) -/
def membersPass2 : Asm → List Cb → Res (Asm × List Line)
  | s, [] => .ok (s, [])
  | s, c :: cs =>
    match s.step membersCfg c with
    | .error e => .error e
    | .ok (s, es) =>
      match membersHooks s es with
      | .error e => .error e
      | .ok (s, a) =>
        match membersPass2 s cs with
        | .error e => .error e
        | .ok (s, b) => .ok (s, a ++ b)

/-- examples/osmium_relation_members.cpp 88-109 `main`: the lines that can be written in the second pass for a
file whose calls are `calls` in both passes.  (Not modelled: what is written about the use of memory, 101-103.) -/
def MembersMain (calls : List Cb) (out : Res (List Line)) : Prop :=
  ∃ s, Asm.AfterPass1 membersCfg calls s ∧ out = (membersPass2 s calls).map (·.2)

end Osmium
