import Verif.Examples.RelationMembers
import Verif.Relations.FileProps

/-
Property C86: the relations and members that osmium_relation_members shows.
-/
namespace Osmium
open Spec

namespace Spec

/-- The object of the file a member refers to. -/
def inFile (file : List OsmObj) (m : Member) : Option OsmObj := file.find? (refersTo m)

/-- All members of the relation are in the file. -/
def HasAllMembers (file : List OsmObj) (r : Relation) : Prop := ∀ m ∈ r.members, (inFile file m).isSome = true

instance (file : List OsmObj) (r : Relation) : Decidable (HasAllMembers file r) := by
  unfold HasAllMembers; infer_instance

/-- The name of a type of members. -/
def memberWord (c : Char) : String :=
  if c = 'n' then "node" else if c = 'w' then "way" else if c = 'r' then "relation" else ""

/-- The lines about member number `i`: its type, id and role, and its tags if it is in the file. -/
def describeMember (file : List OsmObj) (i : Nat) (m : Member) : List Line :=
  [txt "  [" ++ Text.natDec i ++ txt "] Member " ++ txt (memberWord m.type) ++ txt " " ++ Text.intDec m.ref ++
    txt " with role '" ++ m.role.toList ++ txt "'" ++
    (if (inFile file m).isNone then txt " (NOT IN INPUT FILE)" else [])] ++
  ((inFile file m).toList.flatMap fun o => o.obj.tags.map fun t =>
    txt "      " ++ t.key.toList ++ txt "=" ++ t.value.toList)

/-- The lines about a relation of a file: its id and whether it is complete, its tags and its members. -/
def describe (file : List OsmObj) (r : Relation) : List Line :=
  [txt "Relation " ++ Text.intDec r.obj.id ++ (if HasAllMembers file r then [] else txt " (INCOMPLETE)")] ++
  (r.obj.tags.map fun t => txt "  " ++ t.key.toList ++ txt "=" ++ t.value.toList) ++
  (r.members.zipIdx.flatMap fun x => describeMember file x.2 x.1) ++ [[]]

end Spec

theorem dumpMember_eq (file : List OsmObj) (i : Nat) (m : Member) :
    dumpMember i m (inFile file m) = describeMember file i m := by
  have ht : dumpType m.type = txt (memberWord m.type) := by
    unfold dumpType memberWord; split_ifs <;> rfl
  unfold dumpMember describeMember dumpTags
  cases h : inFile file m with
  | none => simp [ht, txt]
  | some o => simp [ht, txt]

theorem dumpMembers_eq (file : List OsmObj) (all : List Member) (i : Nat) (ms : List Member)
    (h : all.drop i = ms) :
    dumpMembers (all.map (inFile file)) i ms =
      .ok ((ms.zipIdx i).flatMap fun x => describeMember file x.2 x.1) := by
  induction ms generalizing i with
  | nil => rfl
  | cons m ms ih =>
    have h1 : all[i]? = some m := by
      have := congrArg (·[0]?) h
      simpa using this
    have h2 : all.drop (i + 1) = ms := by
      have := congrArg (List.drop 1) h
      rw [List.drop_drop] at this
      simpa using this
    rw [dumpMembers, List.getElem?_map, h1, Option.map_some, ih (i + 1) h2]
    simp only [dumpMember_eq, List.zipIdx_cons, List.flatMap_cons]

theorem slots_members (file : List OsmObj) (r : Relation) :
    slots membersCfg file r = r.members.map (inFile file) := by
  unfold slots membersCfg inFile
  simp

theorem dumpRelation_eq (file : List OsmObj) (r : Relation) (need : Int) :
    dumpRelation ⟨some r, slots membersCfg file r, need⟩ (decide (HasAllMembers file r)) =
      .ok (describe file r) := by
  unfold dumpRelation
  simp only [slots_members]
  rw [dumpMembers_eq file r.members 0 r.members (by simp)]
  unfold describe dumpTags
  by_cases h : HasAllMembers file r <;> simp [h, txt]

theorem allSeen_members (file : List OsmObj) (r : Relation) :
    AllSeen membersCfg file r ↔ HasAllMembers file r := by
  unfold AllSeen HasAllMembers wanted inFile membersCfg
  simp [List.find?_isSome]

theorem completable_members (file : List OsmObj) (r : Relation) :
    Completable membersCfg file r ↔ r.members ≠ [] ∧ HasAllMembers file r := by
  unfold Completable
  rw [allSeen_members]
  unfold wanted membersCfg
  simp

/-! ### The hooks -/

theorem membersHooks_quiet (s : Asm) (es : List AsmEvent) (ha : AsmEvent.allAvailable ∉ es)
    (text : Relation × List (Option OsmObj) → List Line)
    (ht : ∀ x ∈ completions es, dumpRelation ⟨some x.1, x.2, 0⟩ true = .ok (text x)) :
    membersHooks s es = .ok (s, (completions es).flatMap text) := by
  induction es with
  | nil => rfl
  | cons e es ih =>
    have ha' : AsmEvent.allAvailable ∉ es := fun h => ha (List.mem_cons_of_mem _ h)
    cases e with
    | complete r ms =>
      have hc : completions (.complete r ms :: es) = (r, ms) :: completions es := rfl
      rw [hc] at ht ⊢
      rw [membersHooks, ht (r, ms) (by simp), ih ha' (fun x hx => ht x (List.mem_cons_of_mem _ hx))]
      rfl
    | allAvailable => simp at ha
    | notInAny o => exact ih ha' ht
    | next c => exact ih ha' ht

theorem membersPass2_quiet (s : Asm) (cs : List Cb) (s' : Asm) (ev : List AsmEvent)
    (hr : s.pass2 membersCfg cs = .ok (s', ev)) (ha : AsmEvent.allAvailable ∉ ev)
    (text : Relation × List (Option OsmObj) → List Line)
    (ht : ∀ x ∈ completions ev, dumpRelation ⟨some x.1, x.2, 0⟩ true = .ok (text x)) :
    membersPass2 s cs = .ok (s', (completions ev).flatMap text) := by
  induction cs generalizing s ev with
  | nil =>
    have : Except.ok (s, []) = (Except.ok (s', ev) : Res _) := hr
    cases this
    rfl
  | cons c cs ih =>
    rw [Asm.pass2] at hr
    cases h1 : s.step membersCfg c with
    | error e => rw [h1] at hr; cases hr
    | ok p =>
      obtain ⟨s1, es⟩ := p
      rw [h1] at hr
      change (do let q ← Asm.pass2 membersCfg s1 cs; return (q.1, es ++ q.2)) = _ at hr
      cases h2 : Asm.pass2 membersCfg s1 cs with
      | error e => rw [h2] at hr; cases hr
      | ok q =>
        obtain ⟨s2, es2⟩ := q
        rw [h2] at hr
        have : Except.ok (s2, es ++ es2) = (Except.ok (s', ev) : Res _) := hr
        cases this
        have hc : completions (es ++ es2) = completions es ++ completions es2 := by
          simp [completions]
        rw [hc] at ht ⊢
        rw [membersPass2, h1]
        simp only
        rw [membersHooks_quiet s1 es (fun h => ha (by simp [h])) text (fun x hx => ht x (by simp [hx]))]
        simp only
        rw [ih s1 es2 h2 (fun h => ha (by simp [h])) (fun x hx => ht x (by simp [hx]))]
        simp

theorem membersPass2_append (s : Asm) (a b : List Cb) (s1 : Asm) (l : List Line)
    (h : membersPass2 s a = .ok (s1, l)) :
    membersPass2 s (a ++ b) = (membersPass2 s1 b).map fun p => (p.1, l ++ p.2) := by
  induction a generalizing s l with
  | nil =>
    have : Except.ok (s, []) = (Except.ok (s1, l) : Res _) := h
    cases this
    rw [List.nil_append]
    cases membersPass2 s1 b <;> rfl
  | cons c cs ih =>
    rw [membersPass2] at h
    rw [List.cons_append, membersPass2]
    cases h1 : s.step membersCfg c with
    | error e => rw [h1] at h; cases h
    | ok p =>
      obtain ⟨t, es⟩ := p
      rw [h1] at h
      simp only at h ⊢
      cases h2 : membersHooks t es with
      | error e => rw [h2] at h; cases h
      | ok q =>
        obtain ⟨t2, x⟩ := q
        rw [h2] at h
        simp only at h ⊢
        cases h3 : membersPass2 t2 cs with
        | error e => rw [h3] at h; cases h
        | ok q =>
          obtain ⟨t3, y⟩ := q
          rw [h3] at h
          have : Except.ok (t3, x ++ y) = (Except.ok (s1, l) : Res _) := h
          cases this
          rw [ih t2 y h3]
          cases membersPass2 s1 b with
          | error e => rfl
          | ok z => simp [Except.map]

/-! ### Counting the ends of blocks -/

/-- The ends of blocks of nodes, ways and relations. -/
def blockEnds (cs : List Cb) : Nat := cs.countP fun c => c = .after .node ∨ c = .after .way ∨ c = .after .relation

theorem want_pass2 (s : Asm) (cs : List Cb) (s' : Asm) (ev : List AsmEvent)
    (hr : s.pass2 membersCfg cs = .ok (s', ev)) : s'.want = s.want - blockEnds cs := by
  induction cs generalizing s ev with
  | nil =>
    have : Except.ok (s, []) = (Except.ok (s', ev) : Res _) := hr
    cases this
    simp [blockEnds]
  | cons c cs ih =>
    rw [Asm.pass2] at hr
    cases h1 : s.step membersCfg c with
    | error e => rw [h1] at hr; cases hr
    | ok p =>
      obtain ⟨s1, es⟩ := p
      rw [h1] at hr
      change (do let q ← Asm.pass2 membersCfg s1 cs; return (q.1, es ++ q.2)) = _ at hr
      cases h2 : Asm.pass2 membersCfg s1 cs with
      | error e => rw [h2] at hr; cases hr
      | ok q =>
        obtain ⟨s2, es2⟩ := q
        rw [h2] at hr
        have : Except.ok (s2, es ++ es2) = (Except.ok (s', ev) : Res _) := hr
        cases this
        rw [ih s1 es2 h2]
        have hw : s1.want = s.want - (if c = .after .node ∨ c = .after .way ∨ c = .after .relation then 1 else 0 : Nat) := by
          cases c with
          | obj o =>
            have : s1.want = s.want := by
              unfold Asm.step at h1
              simp only at h1
              split at h1
              · split at h1
                · cases h1; rfl
                · cases h3 : addAll o s.rels (‹MemberInfo› :: ‹List MemberInfo›) with
                  | error e => rw [h3] at h1; cases h1
                  | ok p => rw [h3] at h1; cases h1; rfl
              · cases h1; rfl
            simp [this]
          | after t =>
            unfold Asm.step at h1
            simp only at h1
            cases t <;> (cases h1; simp [membersCfg])
          | init m => cases h1; simp
          | before t => cases h1; simp
          | final => cases h1; simp
        rw [hw]
        unfold blockEnds
        rw [List.countP_cons]
        by_cases hc : c = .after .node ∨ c = .after .way ∨ c = .after .relation
        · simp [hc]; omega
        · simp [hc]

theorem trace_not_available (rels : List Relation) (cs : List Cb) (seen : List OsmObj) (left : Int)
    (ev : List AsmEvent) (h : Pass2Trace membersCfg rels seen left cs ev) (hl : (blockEnds cs : Int) < left) :
    AsmEvent.allAvailable ∉ ev := by
  induction cs generalizing seen left ev with
  | nil => cases h; simp
  | cons c cs ih =>
    obtain ⟨es, rest, rfl, h⟩ := h
    have hb : blockEnds (c :: cs) = blockEnds cs +
        (if c = .after .node ∨ c = .after .way ∨ c = .after .relation then 1 else 0) := by
      unfold blockEnds; rw [List.countP_cons]; simp
    have fin : AsmEvent.allAvailable ∉ es → AsmEvent.allAvailable ∉ rest →
        AsmEvent.allAvailable ∉ es ++ [AsmEvent.next c] ++ rest := by
      intro a b; simp [a, b]
    cases c with
    | obj o =>
      simp only [reduceCtorEq, or_self, if_false, Nat.add_zero] at hb
      rw [hb] at hl
      simp only at h
      split at h
      · refine fin ?_ (ih _ _ _ h.2 hl)
        have := h.1
        unfold HooksFor at this
        split at this
        · rw [this.mem_iff]; simp
        · rw [this]; simp
      · exact fin (by simp [h.1]) (ih _ _ _ h.2 hl)
    | after t =>
      simp only at h
      by_cases he : membersCfg.enabled t
      · rw [if_pos he] at h
        have ht : (Cb.after t = .after .node ∨ Cb.after t = .after .way ∨ Cb.after t = .after .relation) := by
          cases t <;> simp [membersCfg] at he ⊢
        rw [if_pos ht] at hb
        rw [hb] at hl
        refine fin ?_ (ih _ _ _ h.2 (by omega))
        rw [h.1, if_neg (by omega)]
        simp
      · rw [if_neg he] at h
        exact fin (by simp [h.1]) (ih _ _ _ h.2 (by omega))
    | init m => exact fin (by simp [h.1]) (ih _ _ _ h.2 (by omega))
    | before t => exact fin (by simp [h.1]) (ih _ _ _ h.2 (by omega))
    | final => exact fin (by simp [h.1]) (ih _ _ _ h.2 (by omega))

theorem dumpAll_eq (file : List OsmObj) (rels : List Relation) :
    dumpAll (((rels.map fun r => (r, slots membersCfg file r)).map (slotOf membersCfg)).filter fun i => ¬ i.hasAll) =
      .ok ((rels.filter fun r => ¬ HasAllMembers file r).flatMap (describe file)) := by
  induction rels with
  | nil => rfl
  | cons r rels ih =>
    simp only [List.map_cons, List.filter_cons]
    have hm := miss_slots membersCfg file r
    rw [allSeen_members] at hm
    by_cases ha : HasAllMembers file r
    · have h0 := hm.2 ha
      have : (slotOf membersCfg (r, slots membersCfg file r)).hasAll = true := by
        simp only [slotOf]
        split
        · simp [RelInfo.hasAll, RelInfo.empty]
        · simp [RelInfo.hasAll, h0]
      simp only [this, ha, not_true_eq_false, decide_false]
      exact ih
    · have h0 : miss membersCfg r (slots membersCfg file r) ≠ 0 := fun h => ha (hm.1 h)
      have hsl : slotOf membersCfg (r, slots membersCfg file r) = ⟨some r, slots membersCfg file r,
            (miss membersCfg r (slots membersCfg file r) : Int)⟩ := by
        simp only [slotOf]
        rw [if_neg (fun h => h0 h.2)]
      rw [hsl]
      have : RelInfo.hasAll ⟨some r, slots membersCfg file r,
            (miss membersCfg r (slots membersCfg file r) : Int)⟩ = false := by
        simp [RelInfo.hasAll, h0]
      simp only [this, ha, not_false_eq_true, decide_true, if_true, Bool.false_eq_true]
      have hd := dumpRelation_eq file r (miss membersCfg r (slots membersCfg file r) : Int)
      rw [decide_eq_false ha] at hd
      rw [dumpAll, hd, ih]
      rfl

theorem blockEnds_append (a b : List Cb) : blockEnds (a ++ b) = blockEnds a + blockEnds b := by
  simp [blockEnds, List.countP_append]

theorem blockEnds_run {t : ObjType} (ht : t = .node ∨ t = .way ∨ t = .relation) (xs : List OsmObj)
    (h : ∀ o ∈ xs, o.type = t) : blockEnds (runCalls xs) = if xs = [] then 0 else 1 := by
  cases xs with
  | nil => rfl
  | cons x xs =>
    have hx := h x (by simp)
    have hz : ∀ l : List OsmObj, blockEnds (l.map Cb.obj) = 0 := by
      intro l; unfold blockEnds; rw [List.countP_eq_zero]; simp
    show blockEnds ([Cb.before x.type] ++ (x :: xs).map Cb.obj ++ [Cb.after x.type]) = _
    rw [blockEnds_append, blockEnds_append, hz, hx]
    rcases ht with rfl | rfl | rfl <;> simp [blockEnds]

/-- The state and the events of the second pass over the beginning of a file. -/
theorem members_prefix (m : Meta) (ns ws : List OsmObj) (rs : List Relation)
    (hn : ∀ o ∈ ns, o.type = .node) (hw : ∀ o ∈ ws, o.type = .way)
    (hd : DistinctObjects (ns ++ ws ++ rs.map OsmObj.relation)) (s : Asm)
    (h1 : Asm.AfterPass1 membersCfg (protocol m (ns ++ ws ++ rs.map OsmObj.relation)) s)
    (a b : List Cb) (hab : protocol m (ns ++ ws ++ rs.map OsmObj.relation) = a ++ b)
    (hb : objects b = []) (hl : blockEnds a < 3) :
    ∃ (s' : Asm) (order : List Relation), membersPass2 s a = .ok (s', order.flatMap (describe (ns ++ ws ++ rs.map OsmObj.relation))) ∧
      order.Perm (rs.filter fun r => r.members ≠ [] ∧ HasAllMembers (ns ++ ws ++ rs.map OsmObj.relation) r) ∧
      s'.want = 3 - blockEnds a ∧
      s'.rels = (rs.map fun r => (r, slots membersCfg (ns ++ ws ++ rs.map OsmObj.relation) r)).map
        (slotOf membersCfg) := by
  have hr : ∀ o ∈ rs.map OsmObj.relation, o.type = .relation := by simp [OsmObj.type]
  obtain ⟨hrel, hend⟩ := asmRelations_file membersCfg m ns ws rs hn hw
  have hrel' : rs.filter membersCfg.accept = rs := by simp [membersCfg]
  rw [hrel'] at hrel
  have hobj : asmObjects membersCfg a = ns ++ ws ++ rs.map OsmObj.relation := by
    have h := objects_file m ns ws _ hn hw hr
    rw [hab] at h
    have e : objects (a ++ b) = objects a ++ objects b := by simp [objects]
    rw [e, hb, List.append_nil] at h
    rw [asmObjects_eq, h, List.filter_eq_self]
    intro o ho
    rcases List.mem_append.1 ho with ho | ho
    · rcases List.mem_append.1 ho with ho | ho
      · rw [hn o ho]; rfl
      · rw [hw o ho]; rfl
    · rw [hr o ho]; rfl
  have hob : OneBlockEach a := by
    have := oneBlock_file m ns ws _ hn hw hr
    rw [hab] at this
    exact (List.pairwise_append.1 this).1
  obtain ⟨g1, g2, g3⟩ := asm_added membersCfg _ s h1 (by
    intro hne; apply hend; rintro rfl; rw [hrel] at hne; exact hne rfl)
  rw [hrel] at g1 g3
  have e : ∀ r, slots membersCfg [] r = r.members.map fun _ => none := by
    intro r; unfold slots; simp
  obtain ⟨s', ev, k1, k2, k3⟩ := pass2_trace membersCfg rs a [] s
    (by simp only [e]; exact g1) (fun o _ _ => g3 o.type) (by rw [hobj]; exact hd) hob
  rw [hobj, List.nil_append] at k3
  have hwant : s.want = 3 := by rw [g2]; rfl
  have hq := trace_not_available rs a [] s.want ev k2 (by rw [hwant]; omega)
  obtain ⟨t1, -, -⟩ := trace_summary _ _ _ _ _ _ k2
  rw [hobj, List.nil_append] at t1
  have hfil : (rs.filter fun r => Completable membersCfg (ns ++ ws ++ rs.map OsmObj.relation) r ∧
      ¬ Completable membersCfg [] r) =
      rs.filter fun r => r.members ≠ [] ∧ HasAllMembers (ns ++ ws ++ rs.map OsmObj.relation) r := by
    apply List.filter_congr
    intro r _
    rw [decide_eq_decide, completable_members, completable_members]
    constructor
    · exact fun h => h.1
    · intro h
      refine ⟨h, fun h' => h.1 ?_⟩
      have := h'.2
      unfold HasAllMembers inFile at this
      cases hm : r.members with
      | nil => rfl
      | cons x xs => rw [hm] at this; simpa using this x (by simp)
  rw [hfil] at t1
  set file := ns ++ ws ++ rs.map OsmObj.relation with hfile
  have hall : ∀ x ∈ completions ev, x = (x.1, slots membersCfg file x.1) ∧ HasAllMembers file x.1 := by
    intro x hx
    have := t1.mem_iff.1 hx
    rw [List.mem_map] at this
    obtain ⟨r, hr, rfl⟩ := this
    have := (List.mem_filter.1 hr).2
    simp only [decide_eq_true_eq] at this
    exact ⟨rfl, this.2⟩
  have hrun := membersPass2_quiet s a s' ev k1 hq (fun x => describe file x.1) (by
    intro x hx
    obtain ⟨h1, h2⟩ := hall x hx
    have := dumpRelation_eq file x.1 0
    rw [decide_eq_true h2] at this
    rw [show x.2 = slots membersCfg file x.1 from congrArg Prod.snd h1]
    exact this)
  refine ⟨s', (completions ev).map Prod.fst, ?_, ?_, ?_, k3⟩
  · rw [hrun, List.flatMap_map]
  · have := t1.map Prod.fst
    rw [List.map_map] at this
    simpa [Function.comp_def] using this
  · rw [want_pass2 s a s' ev k1, hwant]

/-- **C86** (partial: for files whose objects are sorted by type and all different; see below for the relations
that are not shown): each relation that has members and all of them in the file is described, with the tags of all
its members; then, if there are nodes, ways and relations in the file, all relations for which members are missing
are described in the order of the file, with the members that are there.  Nothing else is written, and nothing
fails. -/
theorem relation_members_partial (m : Meta) (ns ws : List OsmObj) (rs : List Relation)
    (hn : ∀ o ∈ ns, o.type = .node) (hw : ∀ o ∈ ws, o.type = .way)
    (hd : DistinctObjects (ns ++ ws ++ rs.map OsmObj.relation)) (out : Res (List Line))
    (h : MembersMain (protocol m (ns ++ ws ++ rs.map OsmObj.relation)) out) :
    let file := ns ++ ws ++ rs.map OsmObj.relation
    ∃ order : List Relation, order.Perm (rs.filter fun r => r.members ≠ [] ∧ HasAllMembers file r) ∧
      out = .ok (order.flatMap (describe file) ++
        if ns ≠ [] ∧ ws ≠ [] ∧ rs ≠ [] then (rs.filter fun r => ¬ HasAllMembers file r).flatMap (describe file)
        else []) := by
  intro file
  obtain ⟨s, h1, rfl⟩ := h
  have hr : ∀ o ∈ rs.map OsmObj.relation, o.type = .relation := by simp [OsmObj.type]
  have hsplit := protocol_split m ns ws _ hn hw hr
  have cn := blockEnds_run (.inl rfl) ns hn
  have cw := blockEnds_run (.inr (.inl rfl)) ws hw
  by_cases hall : ns ≠ [] ∧ ws ≠ [] ∧ rs ≠ []
  · rw [if_pos hall]
    obtain ⟨h2, h3, h4⟩ := hall
    rw [if_neg h2] at cn
    rw [if_neg h3] at cw
    have hrc : runCalls (rs.map OsmObj.relation) =
        (.before .relation :: (rs.map OsmObj.relation).map Cb.obj) ++ [.after .relation] := by
      cases rs with
      | nil => exact absurd rfl h4
      | cons r rs => rfl
    have hz : blockEnds (.before .relation :: (rs.map OsmObj.relation).map Cb.obj) = 0 := by
      unfold blockEnds; rw [List.countP_eq_zero]; simp
    have hab : protocol m file = (.init m :: (runCalls ns ++ (runCalls ws ++
        (.before .relation :: (rs.map OsmObj.relation).map Cb.obj)))) ++ [.after .relation, .final] := by
      rw [hsplit, hrc]; simp
    have hlen : blockEnds (.init m :: (runCalls ns ++ (runCalls ws ++
        (.before .relation :: (rs.map OsmObj.relation).map Cb.obj)))) = 2 := by
      rw [← List.singleton_append, blockEnds_append, blockEnds_append, blockEnds_append, hz, cn, cw]
      rfl
    obtain ⟨s', order, r1, r2, r3, r4⟩ := members_prefix m ns ws rs hn hw hd s h1 _ _ hab rfl (by rw [hlen]; omega)
    rw [hlen] at r3
    refine ⟨order, r2, ?_⟩
    rw [hab, membersPass2_append _ _ _ _ _ r1]
    have hstep : s'.step membersCfg (.after .relation) =
        .ok ({ s' with infos := fun t' => if t' = .relation then [] else s'.infos t', want := s'.want - 1 },
          [.allAvailable, .next (.after .relation)]) := by
      unfold Asm.step
      simp only [show membersCfg.enabled .relation = true from rfl, if_true, show s'.want - 1 = 0 by rw [r3]; rfl]
      rfl
    have hd := dumpAll_eq file rs
    rw [membersPass2, hstep]
    simp only [membersHooks, Asm.clean, r4]
    rw [hd]
    simp only [membersPass2, Asm.step, membersHooks]
    simp [Except.map, file]
  · rw [if_neg hall]
    have cr := blockEnds_run (.inr (.inr rfl)) _ hr
    have hlen : blockEnds (protocol m file) < 3 := by
      rw [hsplit, ← List.singleton_append, blockEnds_append, blockEnds_append, blockEnds_append, blockEnds_append,
        cn, cw, cr]
      have e1 : blockEnds [Cb.init m] = 0 := rfl
      have e2 : blockEnds [Cb.final] = 0 := rfl
      rw [e1, e2]
      simp only [List.map_eq_nil_iff]
      by_cases a : ns = [] <;> by_cases b : ws = [] <;> by_cases c : rs = [] <;> simp_all
    obtain ⟨s', order, r1, r2, -, -⟩ := members_prefix m ns ws rs hn hw hd s h1 (protocol m file) [] (by simp [file])
      rfl hlen
    exact ⟨order, r2, by rw [r1, List.append_nil]; rfl⟩

/-- There is always an outcome (some order of the vectors after sorting). -/
theorem members_outcome (calls : List Cb) : ∃ out, MembersMain calls out := by
  by_cases h : ((Asm.new membersCfg).pass1 membersCfg calls).2
  · let p := (Asm.new membersCfg).pass1 membersCfg calls
    refine ⟨_, { p.1 with infos := fun t => (p.1.infos t).mergeSort (fun a b => a.id ≤ b.id) }, ?_, rfl⟩
    unfold Asm.AfterPass1
    simp only [h, if_true]
    refine ⟨rfl, rfl, fun t => ⟨List.mergeSort_perm _ _, ?_⟩⟩
    have := List.pairwise_mergeSort (le := fun a b : MemberInfo => decide (a.id ≤ b.id))
      (fun a b c h1 h2 => by simp at h1 h2 ⊢; omega) (fun a b => by simp; omega) (p.1.infos t)
    simpa using this
  · refine ⟨_, ((Asm.new membersCfg).pass1 membersCfg calls).1, ?_, rfl⟩
    unfold Asm.AfterPass1
    simp [h]

/-- **C86, disagreement**: a relation without members is not described. -/
theorem members_empty_relation (m : Meta) (ns ws : List OsmObj) (r : Relation) (hr : r.members = [])
    (hn : ∀ o ∈ ns, o.type = .node) (hw : ∀ o ∈ ws, o.type = .way)
    (hd : DistinctObjects (ns ++ ws ++ [OsmObj.relation r])) (out : Res (List Line))
    (h : MembersMain (protocol m (ns ++ ws ++ [OsmObj.relation r])) out) : out = .ok [] := by
  obtain ⟨order, h1, rfl⟩ := relation_members_partial m ns ws [r] hn hw hd out h
  have e : ∀ file, HasAllMembers file r := by intro file; unfold HasAllMembers; simp [hr]
  simp only [ne_eq, List.filter_cons, List.filter_nil, hr, not_true_eq_false, false_and, decide_false,
    Bool.false_eq_true, if_false, e] at h1 ⊢
  rw [h1.eq_nil]
  simp

/-- **C86, disagreement**: if the file has no ways (or no nodes), relations for which members are missing are not
described at all. -/
theorem members_incomplete_lost (m : Meta) (ns : List OsmObj) (rs : List Relation)
    (hn : ∀ o ∈ ns, o.type = .node) (hd : DistinctObjects (ns ++ rs.map OsmObj.relation)) (out : Res (List Line))
    (h : MembersMain (protocol m (ns ++ rs.map OsmObj.relation)) out)
    (hi : ∀ r ∈ rs, ¬ HasAllMembers (ns ++ rs.map OsmObj.relation) r) : out = .ok [] := by
  have e : ns ++ [] = ns := List.append_nil ns
  obtain ⟨order, h1, rfl⟩ := relation_members_partial m ns [] rs hn (by simp) (by rw [e]; exact hd) out
    (by rw [e]; exact h)
  rw [e] at h1 ⊢
  have : (rs.filter fun r => r.members ≠ [] ∧ HasAllMembers (ns ++ rs.map OsmObj.relation) r) = [] := by
    rw [List.filter_eq_nil_iff]
    intro r hr
    simp [hi r hr]
  rw [this] at h1
  rw [h1.eq_nil]
  simp

/-! ### A file -/

/-- An object for the examples. -/
def memObj (id : Int) (k v : String) : Obj := { Obj.new with id, tags := [⟨k, v⟩] }

/-- A node, a way and three relations: complete, incomplete, and without members. -/
def memFile : List OsmObj × List OsmObj × List Relation :=
  ([.node ⟨memObj 1 "a" "b", ⟨0, 0⟩⟩], [.way ⟨memObj 2 "c" "d", []⟩],
   [⟨memObj 3 "e" "f", [⟨'w', 2, "outer"⟩, ⟨'r', 4, ""⟩]⟩, ⟨memObj 4 "g" "h", [⟨'n', 1, "stop"⟩, ⟨'w', 9, ""⟩]⟩,
    ⟨memObj 5 "i" "j", []⟩])

/-- A file with nodes after the ways. -/
def memUnsorted : List OsmObj :=
  memFile.1 ++ memFile.2.1 ++ [.node ⟨memObj 6 "k" "l", ⟨0, 0⟩⟩] ++
    [.relation ⟨memObj 3 "e" "f", [⟨'n', 1, ""⟩]⟩, .relation ⟨memObj 4 "g" "h", [⟨'r', 3, ""⟩]⟩]

/-- **C86, disagreement**: if there are nodes again after the ways, the program can fail an assertion. -/
theorem members_unsorted (m : Meta) (out : Res (List Line)) (h : MembersMain (protocol m memUnsorted) out) :
    out.toOption = none := by
  obtain ⟨s, h1, rfl⟩ := h
  have h2 : ((Asm.new membersCfg).pass1 membersCfg (protocol m memUnsorted)).2 = true := rfl
  unfold Asm.AfterPass1 at h1
  simp only [h2, if_true] at h1
  obtain ⟨g1, g2, g3⟩ := h1
  have e : s = ((Asm.new membersCfg).pass1 membersCfg (protocol m memUnsorted)).1 := by
    obtain ⟨a, b, c⟩ := s
    simp only at g1 g2 g3
    have hi : b = ((Asm.new membersCfg).pass1 membersCfg (protocol m memUnsorted)).1.infos := by
      funext t
      have hp := (g3 t).1
      cases t with
      | node =>
        have : ((Asm.new membersCfg).pass1 membersCfg (protocol m memUnsorted)).1.infos .node = [⟨1, 0, 0⟩] := rfl
        rw [this] at hp ⊢; exact hp.eq_singleton
      | relation =>
        have : ((Asm.new membersCfg).pass1 membersCfg (protocol m memUnsorted)).1.infos .relation = [⟨3, 1, 0⟩] := rfl
        rw [this] at hp ⊢; exact hp.eq_singleton
      | way => exact hp.eq_nil
      | area => exact hp.eq_nil
      | unknown => exact hp.eq_nil
    rw [g1, g2, hi]
  rw [e]
  rfl

example (m : Meta) : ∃ out, MembersMain (protocol m (memFile.1 ++ memFile.2.1 ++ memFile.2.2.map .relation)) out ∧
    ∃ ls, out = .ok ls ∧ ls.map String.ofList = ["Relation 3", "  e=f", "  [0] Member way 2 with role 'outer'", "      c=d",
      "  [1] Member relation 4 with role ''", "      g=h", "", "Relation 4 (INCOMPLETE)", "  g=h",
      "  [0] Member node 1 with role 'stop'", "      a=b", "  [1] Member way 9 with role '' (NOT IN INPUT FILE)", ""] := by
  obtain ⟨out, h⟩ := members_outcome (protocol m (memFile.1 ++ memFile.2.1 ++ memFile.2.2.map .relation))
  obtain ⟨order, h1, h2⟩ := relation_members_partial m memFile.1 memFile.2.1 memFile.2.2 (by decide) (by decide)
    (by unfold DistinctObjects; decide) out h
  refine ⟨out, h, _, h2, ?_⟩
  have : order = [⟨memObj 3 "e" "f", [⟨'w', 2, "outer"⟩, ⟨'r', 4, ""⟩]⟩] := by
    have e : (memFile.2.2.filter fun r => r.members ≠ [] ∧
      HasAllMembers (memFile.1 ++ memFile.2.1 ++ memFile.2.2.map .relation) r) =
      [⟨memObj 3 "e" "f", [⟨'w', 2, "outer"⟩, ⟨'r', 4, ""⟩]⟩] := by decide +kernel
    rw [e] at h1
    exact h1.eq_singleton
  rw [this]
  decide +kernel

end Osmium
