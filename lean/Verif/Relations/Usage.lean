import Verif.Input.Spec
import Mathlib.Tactic.NormNum
import Verif.Relations.Lemmas
import Verif.Common.Text
import Verif.Storage.Model

/-
C120: what the assembler says about the memory it uses (relations/assembler.hpp `used_memory`).
-/
namespace Osmium

/-- The sizes of the types: `sizeof(TRelationInfo)`, `sizeof(Relation)`, `sizeof(RelationMember)`, `sizeof(MemberInfo)`.
(relations/assembler.hpp 297-299; they depend on the compiler) -/
structure TypeSizes where
  relInfo : Nat
  relation : Nat
  member : Nat
  memberInfo : Nat

/-- relations/assembler.hpp 297: the number of entries. -/
def Asm.nmembers (s : Asm) : Nat :=
  wrapN64 ((s.infos .node).length + (s.infos .way).length + (s.infos .relation).length)

/-- relations/assembler.hpp 296-300 and 316: the result of `used_memory`. -/
def Asm.usedMemory (z : TypeSizes) (s : Asm) : Nat :=
  let relations := wrapN64 (s.rels.length * (z.relInfo + z.relation) + s.nmembers * z.member)
  let members := wrapN64 (s.nmembers * z.memberInfo)
  wrapN64 (relations + members)

/-- relations/assembler.hpp 301-314: the numbers that `used_memory` prints, with the texts before them. -/
def Asm.usedLines (z : TypeSizes) (s : Asm) : List (String × Nat) :=
  [("nR  = m_relations.size()             = ", s.rels.length),
   ("nMN = m_member_info[NODE].size()     = ", (s.infos .node).length),
   ("nMW = m_member_info[WAY].size()      = ", (s.infos .way).length),
   ("nMR = m_member_info[RELATION].size() = ", (s.infos .relation).length),
   ("nM  = m_member_info[*].size()        = ", s.nmembers),
   ("sRI = sizeof(TRelationInfo)  = ", z.relInfo),
   ("sR  = sizeof(Relation)       = ", z.relation),
   ("sRM = sizeof(RelationMember) = ", z.member),
   ("sMI = sizeof(MemberInfo)     = ", z.memberInfo),
   ("nR * (sRI + sR) = ", wrapN64 (s.rels.length * (z.relInfo + z.relation))),
   ("nM * sRM        = ", wrapN64 (s.nmembers * z.member)),
   ("nM * sMI        = ", wrapN64 (s.nmembers * z.memberInfo))]

/-- relations/assembler.hpp 301-314: what `used_memory` prints. -/
def Asm.usedText (z : TypeSizes) (s : Asm) : List Char :=
  (s.usedLines z).flatMap fun l => l.1.toList ++ Text.natDec l.2 ++ ['\n']

namespace Spec

/-- How many members of a type the assembler is told to look for in these relations. (specification, no counterpart in
/repo) -/
def wantedOf (cfg : AsmCfg) (c : Char) (rels : List Relation) : Nat :=
  (rels.map fun r => r.members.countP fun m => cfg.keep r m && m.type == c).sum

end Spec

open Osmium.Spec Osmium.Text

theorem infosOf_length (keep : Member → Bool) (t : ObjType) (c : Char) (h : ∀ x, memberKind x = some t ↔ x = c)
    (k n : Nat) (ms : List Member) : (infosOf keep t k n ms).length = ms.countP fun m => keep m && m.type == c := by
  induction ms generalizing n with
  | nil => rfl
  | cons m ms ih =>
    rw [List.countP_cons]
    unfold infosOf
    rw [List.length_append, ih]
    by_cases hk : keep m = true
    · by_cases hc : m.type = c
      · have := (h m.type).2 hc
        simp [hk, hc]
        rw [← hc, this]; simp; omega
      · have : ¬ memberKind m.type = some t := fun e => hc ((h _).1 e)
        simp [hk, hc, this]
    · simp [hk]

theorem allInfos_length (cfg : AsmCfg) (t : ObjType) (c : Char) (h : ∀ x, memberKind x = some t ↔ x = c)
    (k : Nat) (rels : List Relation) : (allInfos cfg t k rels).length = wantedOf cfg c rels := by
  induction rels generalizing k with
  | nil => rfl
  | cons r rels ih =>
    unfold allInfos wantedOf
    rw [List.length_append, ih, infosOf_length _ t c h]
    rfl

theorem memberKind_node (x : Char) : memberKind x = some .node ↔ x = 'n' := by
  unfold memberKind; split <;> simp_all; split <;> simp_all
theorem memberKind_way (x : Char) : memberKind x = some .way ↔ x = 'w' := by
  unfold memberKind
  split
  · rename_i h; subst h; decide
  · split
    · rename_i h; subst h; decide
    · split <;> simp_all
theorem memberKind_relation (x : Char) : memberKind x = some .relation ↔ x = 'r' := by
  unfold memberKind
  split
  · rename_i h; subst h; decide
  · split
    · rename_i h; subst h; decide
    · split <;> simp_all

/-- The counts after the first pass. -/
theorem assembler_counts (cfg : AsmCfg) (calls : List Cb) (s : Asm) (h1 : Asm.AfterPass1 cfg calls s)
    (hend : asmRelations cfg calls ≠ [] → Cb.after .relation ∈ calls) :
    s.rels.length = (asmRelations cfg calls).length ∧
    (s.infos .node).length = wantedOf cfg 'n' (asmRelations cfg calls) ∧
    (s.infos .way).length = wantedOf cfg 'w' (asmRelations cfg calls) ∧
    (s.infos .relation).length = wantedOf cfg 'r' (asmRelations cfg calls) := by
  obtain ⟨g1, -, g3⟩ := asm_added cfg calls s h1 hend
  refine ⟨by rw [g1]; simp, ?_, ?_, ?_⟩
  · rw [(g3 .node).1.length_eq, allInfos_length cfg .node 'n' memberKind_node]
  · rw [(g3 .way).1.length_eq, allInfos_length cfg .way 'w' memberKind_way]
  · rw [(g3 .relation).1.length_eq, allInfos_length cfg .relation 'r' memberKind_relation]

/-- **C120.**  After the first pass the assembler reports and prints the memory for all relations it was told to take,
and for all their members it was told to look for: a relation and its entry for each relation, a member and its entry
for each member. -/
theorem assembler_used (cfg : AsmCfg) (calls : List Cb) (s : Asm) (z : TypeSizes)
    (h1 : Asm.AfterPass1 cfg calls s)
    (hend : asmRelations cfg calls ≠ [] → Cb.after .relation ∈ calls)
    (rels nodes ways relations members : Nat)
    (hr : rels = (asmRelations cfg calls).length)
    (hn : nodes = wantedOf cfg 'n' (asmRelations cfg calls))
    (hw : ways = wantedOf cfg 'w' (asmRelations cfg calls))
    (hl : relations = wantedOf cfg 'r' (asmRelations cfg calls))
    (hm : members = nodes + ways + relations)
    (hsz : 0 < z.member)
    (hfit : rels * (z.relInfo + z.relation) + members * (z.member + z.memberInfo) < 2 ^ 64) :
    s.usedMemory z = rels * (z.relInfo + z.relation) + members * (z.member + z.memberInfo) ∧
    s.usedText z =
      ("nR  = m_relations.size()             = ".toList ++ natDec rels ++ "\n".toList) ++
      ("nMN = m_member_info[NODE].size()     = ".toList ++ natDec nodes ++ "\n".toList) ++
      ("nMW = m_member_info[WAY].size()      = ".toList ++ natDec ways ++ "\n".toList) ++
      ("nMR = m_member_info[RELATION].size() = ".toList ++ natDec relations ++ "\n".toList) ++
      ("nM  = m_member_info[*].size()        = ".toList ++ natDec members ++ "\n".toList) ++
      ("sRI = sizeof(TRelationInfo)  = ".toList ++ natDec z.relInfo ++ "\n".toList) ++
      ("sR  = sizeof(Relation)       = ".toList ++ natDec z.relation ++ "\n".toList) ++
      ("sRM = sizeof(RelationMember) = ".toList ++ natDec z.member ++ "\n".toList) ++
      ("sMI = sizeof(MemberInfo)     = ".toList ++ natDec z.memberInfo ++ "\n".toList) ++
      ("nR * (sRI + sR) = ".toList ++ natDec (rels * (z.relInfo + z.relation)) ++ "\n".toList) ++
      ("nM * sRM        = ".toList ++ natDec (members * z.member) ++ "\n".toList) ++
      ("nM * sMI        = ".toList ++ natDec (members * z.memberInfo) ++ "\n".toList) := by
  obtain ⟨c1, c2, c3, c4⟩ := assembler_counts cfg calls s h1 hend
  rw [← hr] at c1
  rw [← hn] at c2
  rw [← hw] at c3
  rw [← hl] at c4
  rw [Nat.mul_add members] at hfit
  have hmem : members ≤ members * z.member := Nat.le_mul_of_pos_right _ hsz
  have e0 : s.nmembers = members := by
    unfold Asm.nmembers
    rw [c2, c3, c4, ← hm, wrapN64_of_lt (by omega)]
  constructor
  · unfold Asm.usedMemory
    simp only [e0, c1]
    rw [wrapN64_of_lt (n := rels * (z.relInfo + z.relation) + members * z.member) (by omega),
      wrapN64_of_lt (n := members * z.memberInfo) (by omega), wrapN64_of_lt (by omega), Nat.mul_add members]
    omega
  · unfold Asm.usedText Asm.usedLines
    simp only [e0, c1, c2, c3, c4]
    rw [wrapN64_of_lt (n := rels * (z.relInfo + z.relation)) (by omega),
      wrapN64_of_lt (n := members * z.member) (by omega), wrapN64_of_lt (n := members * z.memberInfo) (by omega)]
    simp only [List.flatMap_cons, List.flatMap_nil, List.append_nil, List.append_assoc]
    rfl

/-- A relation with two ways and a node, of which ways are wanted. -/
example : wantedOf ⟨fun _ => true, fun _ => true, fun _ m => m.type == 'w'⟩ 'w'
    [{ Relation.new with members := [⟨'w', 1, ""⟩, ⟨'n', 2, ""⟩, ⟨'w', 3, ""⟩] }] = 2 ∧
    wantedOf ⟨fun _ => true, fun _ => true, fun _ m => m.type == 'w'⟩ 'n'
    [{ Relation.new with members := [⟨'w', 1, ""⟩, ⟨'n', 2, ""⟩, ⟨'w', 3, ""⟩] }] = 0 := by
  decide

/-- Data for the examples, no counterpart in /repo. -/
private def useCfg : AsmCfg := ⟨fun t => t = .node ∨ t = .way, fun _ => true, fun _ m => m.type == 'w'⟩
/-- Data for the examples, no counterpart in /repo. -/
private def useCalls : List Cb := protocol (Meta.new false)
  [.relation ⟨{ Obj.new with id := 1 }, [⟨'w', 10, ""⟩, ⟨'n', 5, ""⟩, ⟨'w', 11, ""⟩]⟩]

/-- The hypotheses of `assembler_used` can be met. -/
example : ∃ s, Asm.AfterPass1 useCfg useCalls s ∧ (asmRelations useCfg useCalls ≠ [] → Cb.after .relation ∈ useCalls) ∧
    (asmRelations useCfg useCalls).length = 1 ∧ wantedOf useCfg 'w' (asmRelations useCfg useCalls) = 2 ∧
    1 * (32 + 200) + 2 * (24 + 40) < 2 ^ 64 := by
  refine ⟨((Asm.new useCfg).pass1 useCfg useCalls).1, ?_, by decide +kernel, by decide +kernel, by decide +kernel,
    by norm_num⟩
  have h2 : ((Asm.new useCfg).pass1 useCfg useCalls).2 = true := by decide +kernel
  unfold Asm.AfterPass1
  simp only [h2, if_true]
  refine ⟨rfl, rfl, fun t => ⟨List.Perm.refl _, ?_⟩⟩
  cases t <;> decide +kernel

end Osmium
