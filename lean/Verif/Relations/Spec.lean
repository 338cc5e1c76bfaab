import Verif.Relations.Model

/-
What the relations assembler is to do (C40, C41, C42).
-/
namespace Osmium.Spec

/-- A member refers to an object. -/
def refersTo (m : Member) (o : OsmObj) : Bool :=
  m.ref == o.obj.id &&
    (match o with
      | .node _ => m.type == 'n'
      | .way _ => m.type == 'w'
      | .relation _ => m.type == 'r')

/-- The members that are wanted. -/
def wanted (cfg : AsmCfg) (r : Relation) : List Member := r.members.filter (cfg.keep r)

/-- All wanted members have been seen. -/
def AllSeen (cfg : AsmCfg) (seen : List OsmObj) (r : Relation) : Prop :=
  ∀ m ∈ wanted cfg r, ∃ o ∈ seen, refersTo m o = true

instance (cfg : AsmCfg) (seen : List OsmObj) (r : Relation) : Decidable (AllSeen cfg seen r) := by
  unfold AllSeen; infer_instance

/-- The relation can be completed: there is something wanted and it has all been seen. -/
def Completable (cfg : AsmCfg) (seen : List OsmObj) (r : Relation) : Prop :=
  wanted cfg r ≠ [] ∧ AllSeen cfg seen r

instance (cfg : AsmCfg) (seen : List OsmObj) (r : Relation) : Decidable (Completable cfg seen r) := by
  unfold Completable; infer_instance

/-- Each wanted member that has been seen in its slot, nothing in the others. -/
def slots (cfg : AsmCfg) (seen : List OsmObj) (r : Relation) : List (Option OsmObj) :=
  r.members.map fun m => if cfg.keep r m then seen.find? (refersTo m) else none

/-- Some wanted member of some relation refers to the object. -/
def Referenced (cfg : AsmCfg) (rels : List Relation) (o : OsmObj) : Prop :=
  ∃ r ∈ rels, ∃ m ∈ wanted cfg r, refersTo m o = true

instance (cfg : AsmCfg) (rels : List Relation) (o : OsmObj) : Decidable (Referenced cfg rels o) := by
  unfold Referenced; infer_instance

/-- The relations of the first pass: all accepted ones before the first end of a block of
relations. -/
def asmRelations (cfg : AsmCfg) : List Cb → List Relation
  | [] => []
  | .obj (.relation r) :: cs =>
    if cfg.accept r then r :: asmRelations cfg cs else asmRelations cfg cs
  | .after .relation :: _ => []
  | _ :: cs => asmRelations cfg cs

/-- The objects of the second pass that the assembler looks at. -/
def asmObjects (cfg : AsmCfg) (calls : List Cb) : List OsmObj :=
  calls.filterMap fun | .obj o => if cfg.enabled o.type then some o else none | _ => none

/-- The hooks called for an object `o` that arrives after `seen`: if nothing refers to it, that is
reported; otherwise the relations that can be completed now but could not before are completed, in
some order. -/
def HooksFor (cfg : AsmCfg) (rels : List Relation) (seen : List OsmObj) (o : OsmObj)
    (es : List AsmEvent) : Prop :=
  if Referenced cfg rels o then
    es.Perm ((rels.filter fun r =>
        Completable cfg (seen ++ [o]) r ∧ ¬ Completable cfg seen r).map
      fun r => .complete r (slots cfg (seen ++ [o]) r))
  else es = [.notInAny o]

/-- The events of the second pass: `seen` are the objects looked at before, `left` is the number
of ends of blocks of enabled types up to the report that all members are available. -/
def Pass2Trace (cfg : AsmCfg) (rels : List Relation) :
    List OsmObj → Int → List Cb → List AsmEvent → Prop
  | _, _, [], ev => ev = []
  | seen, left, c :: cs, ev =>
    ∃ es rest, ev = es ++ [.next c] ++ rest ∧
      (match c with
        | .obj o =>
          if cfg.enabled o.type then
            HooksFor cfg rels seen o es ∧ Pass2Trace cfg rels (seen ++ [o]) left cs rest
          else es = [] ∧ Pass2Trace cfg rels seen left cs rest
        | .after t =>
          if cfg.enabled t then
            es = (if left = 1 then [.allAvailable] else []) ∧
              Pass2Trace cfg rels seen (left - 1) cs rest
          else es = [] ∧ Pass2Trace cfg rels seen left cs rest
        | _ => es = [] ∧ Pass2Trace cfg rels seen left cs rest)

/-- No object comes after the end of the block of its type. -/
def OneBlockEach (calls : List Cb) : Prop :=
  calls.Pairwise fun a b =>
    match a, b with
    | .after t, .obj o => o.type ≠ t
    | _, _ => True

/-- No two objects are (versions of) the same object. -/
def DistinctObjects (os : List OsmObj) : Prop :=
  os.Pairwise fun a b => ¬ (a.type = b.type ∧ a.obj.id = b.obj.id)

end Osmium.Spec
