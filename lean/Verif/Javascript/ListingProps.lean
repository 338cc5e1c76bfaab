import Verif.Javascript.Listing
import Verif.Javascript.ScriptAreasProps
import Verif.Handler.Debug

/-
C115: what objects.js and objects_2pass.js print.
-/
namespace Osmium
open Spec Text

namespace Spec

/-- Texts with a space between them. -/
def spacedText : List (List Char) → List Char
  | [] => []
  | [t] => t
  | t :: ts => t ++ ' ' :: spacedText ts

/-- The attributes of an object as texts: id, version, time (C10), user id, user name and changeset. -/
def attrTexts (o : Obj) : List (List Char) :=
  [intDec o.id, intDec o.version, Time.toIso o.timestamp, intDec o.uid, o.user.toList, intDec o.changeset]

/-- The line for an object: the attributes; for nodes the position as numbers, as WKT and as hex WKB; for ways the
line as WKT, if the last node has a position (C54, C55). -/
def objectLine (num : ℚ → List Char) : OsmObj → List Char
  | .node n => spacedText ("node".toList :: attrTexts n.obj ++
      [num (xy n.position).1, num (xy n.position).2, pointWkt n.position false, '[' :: hexDump (pointWkb n.position false) ++ [']']])
  | .way w => spacedText ("way".toList :: attrTexts w.obj ++
      [if wayNodesHasPosition w.nodes then lineWkt (LineString.new w.nodes false w.obj.id) false else "undefined".toList])
  | .relation r => spacedText ("relation".toList :: attrTexts r.obj)

/-- The lines for the tags. -/
def tagLines (tags : TagList) : List (List Char) := tags.map fun t => ' ' :: t.key.toList ++ '=' :: t.value.toList

/-- The lines for the nodes of a way and the members of a relation. -/
def partLines : OsmObj → List (List Char)
  | .node _ => []
  | .way w => w.nodes.map fun n => " ref ".toList ++ intDec n.ref
  | .relation r => r.members.map fun m =>
      ' ' :: spacedText ["member".toList, [m.type], intDec m.ref, m.role.toList]

/-- The tags of an object. -/
def objTags : OsmObj → TagList
  | .node n => n.obj.tags
  | .way w => w.obj.tags
  | .relation r => r.obj.tags

/-- The line for an area. -/
def areaLine (a : Area) : List Char :=
  spacedText ["area".toList, "from".toList, if areaFromWay a.obj.id then "way".toList else "relation".toList,
    intDec a.obj.id, intDec a.obj.version, Time.toIso a.obj.timestamp, intDec a.obj.uid, intDec a.obj.changeset]

/-- All lines for a call. -/
def callLines (num : ℚ → List Char) : WholeCall → List (List Char)
  | .call (.init _) => ["Start!".toList]
  | .call .final => ["End!".toList]
  | .call (.obj o) => objectLine num o :: tagLines (objTags o) ++ partLines o
  | .area a _ => areaLine a :: tagLines a.obj.tags
  | _ => []

/-- Lines as they are printed: each is ended by a newline. -/
def printed (ls : List (List Char)) : List UInt8 := utf8 (ls.flatMap fun l => l ++ ['\n'])

/-- What is assumed about numbers as texts: integers are written in decimal, and there are no zero characters and no
newlines. -/
def NumberText (num : ℚ → List Char) : Prop :=
  (∀ n : Int, |n| ≤ 9007199254740992 → num n = intDec n) ∧ ∀ q, ∀ c ∈ num q, c ≠ '\x00' ∧ c ≠ '\n'

/-- Tags with different keys that are OSM texts and not numbers. -/
def PlainTags (tags : TagList) : Prop :=
  (tags.map (·.key)).Nodup ∧ ∀ t ∈ tags, OsmText t.key ∧ OsmText t.value ∧ ¬ IndexName t.key.toList

/-- Numbers that a script sees as they are, and OSM texts. -/
def PlainAttrs (o : Obj) : Prop :=
  |o.id| ≤ 9007199254740992 ∧ |o.changeset| ≤ 9007199254740992 ∧ InS32 o.version ∧ InS32 o.uid ∧ OsmText o.user ∧
  PlainTags o.tags

/-- An object all of which a script can see. -/
def PlainObject (num : ℚ → List Char) (o : OsmObj) : Prop :=
  (objectLine num o).length < 268435455 ∧
  match o with
  | .node n => PlainAttrs n.obj
  | .way w => PlainAttrs w.obj ∧ w.nodes.length ≤ 2147483648 ∧ ∀ n ∈ w.nodes, |n.ref| ≤ 9007199254740992
  | .relation r => PlainAttrs r.obj ∧ r.members.length ≤ 2147483648 ∧
      ∀ m ∈ r.members, (m.type = 'n' ∨ m.type = 'w' ∨ m.type = 'r') ∧ |m.ref| ≤ 9007199254740992 ∧ OsmText m.role

/-- The same for all that is given to the script. -/
def PlainCall (num : ℚ → List Char) : WholeCall → Prop
  | .call (.obj o) => PlainObject num o
  | .area a _ => PlainAttrs a.obj
  | _ => True

end Spec

/-! ### The text that is printed -/

theorem bind_ok {α β : Type} (a : α) (f : α → Res β) : Except.bind (.ok a : Res α) f = f a := rfl

theorem utf8_newline (t : List Char) : utf8 (t ++ ['\n']) = utf8 t ++ [10] := by
  have h : utf8 ['\n'] = [10] := by decide +kernel
  rw [utf8_append, h]

theorem printText_ok (out : List UInt8) (t : List Char) (h : Printable t) :
    printText out (utf16 t) = .ok (out ++ utf8 (t ++ ['\n'])) := by
  unfold printText
  rw [v8ToStream_printable h, utf8_newline, ← List.append_assoc]
  rfl

theorem spaced_utf16 : ∀ ts : List (List Char), spaced (ts.map utf16) = utf16 (spacedText ts)
  | [] => rfl
  | [_] => rfl
  | t :: u :: us => by
    have ih := spaced_utf16 (u :: us)
    simp only [List.map_cons] at ih ⊢
    have e1 : spaced (utf16 t :: utf16 u :: us.map utf16) = utf16 t ++ jsLit [' '] ++ spaced (utf16 u :: us.map utf16) := rfl
    have e2 : spacedText (t :: u :: us) = t ++ [' '] ++ spacedText (u :: us) := by
      simp [spacedText]
    rw [e1, e2, ih, utf16_append', utf16_append']
    rfl

theorem mem_spacedText {c : Char} : ∀ {ts : List (List Char)}, c ∈ spacedText ts → c = ' ' ∨ ∃ t ∈ ts, c ∈ t
  | [], h => by simp [spacedText] at h
  | [t], h => .inr ⟨t, by simp, h⟩
  | t :: u :: us, h => by
    rw [spacedText] at h
    · rcases List.mem_append.1 h with h | h
      · exact .inr ⟨t, by simp, h⟩
      · rcases List.mem_cons.1 h with h | h
        · exact .inl h
        · rcases mem_spacedText h with h | ⟨x, hx, h⟩
          · exact .inl h
          · exact .inr ⟨x, List.mem_cons_of_mem _ hx, h⟩
    · simp

theorem printable_short {t : List Char} (h0 : '\x00' ∉ t) (h : t.length < 268435455) : Printable t :=
  osmText_printable h0 h

theorem intDec_chars (n : Int) : ∀ c ∈ intDec n, isDigit c = true ∨ c = '-' := by
  intro c h
  unfold intDec at h
  split at h
  · rcases List.mem_cons.1 h with h | h
    · exact .inr h
    · exact .inl (natDec_digits _ _ h)
  · exact .inl (natDec_digits _ _ h)

theorem toIso_chars (t : Int) : ∀ c ∈ Time.toIso t, isDigit c = true ∨ c = '-' ∨ c = 'T' ∨ c = ':' ∨ c = 'Z' := by
  unfold Time.toIso
  split
  · simp
  · dsimp only
    split
    · have hd : ∀ n : Int, ∀ c ∈ Time.dec2 n, isDigit c = true ∨ c = '-' ∨ c = 'T' ∨ c = ':' ∨ c = 'Z' := by
        intro n c h
        rw [Time.dec2_eq_padded] at h
        exact .inl (padded_digits _ _ _ h)
      have hi : ∀ c ∈ intDec (Time.gmtime t).year, isDigit c = true ∨ c = '-' ∨ c = 'T' ∨ c = ':' ∨ c = 'Z' := by
        intro c h
        rcases intDec_chars _ c h with h | h
        · exact .inl h
        · exact .inr (.inl h)
      simp only [Time.isoText, List.forall_mem_append, List.forall_mem_cons]
      simp only [List.not_mem_nil, false_imp_iff, implies_true, and_true]
      simp
      exact ⟨⟨⟨⟨⟨hi, hd _⟩, hd _⟩, hd _⟩, hd _⟩, hd _⟩
    · simp

theorem attr_chars {o : Obj} {t : List Char} (ht : t ∈ attrTexts o) {c : Char} (hc : c ∈ t) :
    (isDigit c = true ∨ c = '-' ∨ c = 'T' ∨ c = ':' ∨ c = 'Z') ∨ c ∈ o.user.toList := by
  simp only [attrTexts, List.mem_cons, List.not_mem_nil, or_false] at ht
  have hi := fun n h => intDec_chars n c h
  have hi' := fun n h => toIso_chars n c h
  rcases ht with rfl | rfl | rfl | rfl | rfl | rfl
  · have := hi _ hc; tauto
  · have := hi _ hc; tauto
  · have := hi' _ hc; tauto
  · have := hi _ hc; tauto
  · exact .inr hc
  · have := hi _ hc; tauto

theorem shownProps_cons {num : ℚ → List Char} {prop : String → Res JsVal} {name : String} {names : List String}
    {t : List Char} {ts : List (List Char)} (h : ∃ v, prop name = .ok v ∧ jsShow num v = utf16 t)
    (hs : shownProps num prop names = .ok (ts.map utf16)) :
    shownProps num prop (name :: names) = .ok ((t :: ts).map utf16) := by
  obtain ⟨v, a1, a2⟩ := h
  rw [shownProps, a1, hs, List.map_cons, ← a2]
  rfl

theorem shown_attr {num : ℚ → List Char} (hn : NumberText num) {o : Obj} (ho : PlainAttrs o) :
    (∃ v, jsObjectProp o "id" = .ok v ∧ jsShow num v = utf16 (intDec o.id)) ∧
    (∃ v, jsObjectProp o "version" = .ok v ∧ jsShow num v = utf16 (intDec o.version)) ∧
    (∃ v, jsObjectProp o "timestamp" = .ok v ∧ jsShow num v = utf16 (Time.toIso o.timestamp)) ∧
    (∃ v, jsObjectProp o "uid" = .ok v ∧ jsShow num v = utf16 (intDec o.uid)) ∧
    (∃ v, jsObjectProp o "user" = .ok v ∧ jsShow num v = utf16 o.user.toList) ∧
    (∃ v, jsObjectProp o "changeset" = .ok v ∧ jsShow num v = utf16 (intDec o.changeset)) := by
  obtain ⟨h1, h2, h3, h4, h5, -⟩ := ho
  have b : ∀ n : Int, InS32 n → |n| ≤ 9007199254740992 := by
    intro n h; unfold InS32 at h; rw [abs_le]; omega
  have hnum : ∀ n : Int, |n| ≤ 9007199254740992 → jsShow num (.num n) = utf16 (intDec n) := by
    intro n h
    rw [jsShow, hn.1 n h, jsLit_eq]
  refine ⟨⟨.num o.id, ?_, hnum _ h1⟩, ⟨.num o.version, ?_, hnum _ (b _ h3)⟩, ⟨.str (utf16 (Time.toIso o.timestamp)), ?_, rfl⟩,
    ⟨.num o.uid, ?_, hnum _ (b _ h4)⟩, ⟨.str (utf16 o.user.toList), ?_, rfl⟩, ⟨.num o.changeset, ?_, hnum _ h2⟩⟩
  · simp only [jsObjectProp, if_true]; rw [jsNumber_exact h1]
  · simp [jsObjectProp, jsInteger_exact h3]
  · rw [← v8New_utf8 (toIso_not_nul _)]; simp [jsObjectProp]; rfl
  · simp [jsObjectProp, jsInteger_exact h4]
  · simp [jsObjectProp, utf8ToV8_text o.user h5, Except.map]
  · simp [jsObjectProp, jsNumber_exact h2]

theorem shown_attrs {num : ℚ → List Char} (hn : NumberText num) {o : Obj} (ho : PlainAttrs o) :
    shownProps num (jsObjectProp o) listedProps = .ok ((attrTexts o).map utf16) := by
  obtain ⟨e1, e2, e3, e4, e5, e6⟩ := shown_attr hn ho
  exact shownProps_cons e1 (shownProps_cons e2 (shownProps_cons e3 (shownProps_cons e4 (shownProps_cons e5
    (shownProps_cons (ts := []) e6 rfl)))))

theorem callChain_prints {β : Type} (f : List UInt8 → β → Res (List UInt8)) (line : β → List (List Char)) :
    ∀ (bs : List β) (out : List UInt8), (∀ b ∈ bs, ∀ out, f out b = .ok (out ++ printed (line b))) →
      callChain f out bs = .ok (out ++ printed (bs.flatMap line)) := by
  intro bs
  induction bs with
  | nil => intro out _; simp [callChain, printed, utf8]
  | cons b bs ih =>
    intro out h
    rw [callChain, h b List.mem_cons_self]
    simp only
    rw [ih _ fun b hb => h b (List.mem_cons_of_mem _ hb), List.append_assoc]
    simp [printed, utf8, List.flatMap_append]

theorem printed_append (a b : List (List Char)) : printed (a ++ b) = printed a ++ printed b := by
  simp [printed, utf8, List.flatMap_append]

theorem printed_one (t : List Char) : printed [t] = utf8 (t ++ ['\n']) := by simp [printed]

theorem listTags_ok {num : ℚ → List Char} {tags : TagList} (h : PlainTags tags) (out : List UInt8) :
    listTags num tags out = .ok (out ++ printed (tagLines tags)) := by
  obtain ⟨hd, ht⟩ := h
  unfold listTags
  rw [script_tag_keys tags fun t m => (ht t m).1]
  have hv : ∀ t ∈ tags, jsTag tags (utf16 t.key.toList) = .ok (.str (utf16 t.value.toList)) := by
    intro t m
    obtain ⟨keys, h1, h2⟩ := script_sees_all_tags_partial tags hd ht
    rw [script_tag_keys tags fun t m => (ht t m).1] at h1
    cases h1
    rw [List.map_map] at h2
    have := List.map_inj_left.1 h2 t m
    exact (Prod.mk.inj this).2
  have key : ∀ l : TagList, (∀ t ∈ l, t ∈ tags) → ∀ out,
      callChain (listTag num tags) out (l.map fun t => utf16 t.key.toList) = .ok (out ++ printed (tagLines l)) := by
    intro l
    induction l with
    | nil => intro _ out; simp [callChain, printed, tagLines, utf8]
    | cons t l ih =>
      intro hl out
      have m := hl t List.mem_cons_self
      have hp : Printable (' ' :: t.key.toList ++ '=' :: t.value.toList) := by
        apply printable_short
        · have h1 := (ht t m).1.1
          have h2 := (ht t m).2.1.1
          simp only [List.cons_append, List.mem_cons, List.mem_append, not_or]
          exact ⟨by decide, h1, by decide, h2⟩
        · have h1 := (ht t m).1.2
          have h2 := (ht t m).2.1.2
          simp only [List.cons_append, List.length_cons, List.length_append]
          omega
      have e : jsLit [' '] ++ utf16 t.key.toList ++ jsLit ['='] ++ utf16 t.value.toList =
          utf16 (' ' :: t.key.toList ++ '=' :: t.value.toList) := by
        simp only [jsLit_eq, ← utf16_append']
        simp
      have step : listTag num tags out (utf16 t.key.toList) =
          .ok (out ++ printed [' ' :: t.key.toList ++ '=' :: t.value.toList]) := by
        rw [printed_one, ← printText_ok _ _ hp, ← e, listTag, hv t m, bind_ok, jsShow]
      rw [List.map_cons, callChain, step]
      simp only
      rw [ih (fun t m => hl t (List.mem_cons_of_mem _ m)), List.append_assoc]
      congr 2
      rw [show tagLines (t :: l) = [' ' :: t.key.toList ++ '=' :: t.value.toList] ++ tagLines l from rfl,
        printed_append]
  exact key tags (fun _ h => h) out

theorem attrs_not_nul {o : Obj} (ho : PlainAttrs o) {t : List Char} (ht : t ∈ attrTexts o) : '\x00' ∉ t := by
  intro hc
  rcases attr_chars ht hc with h | h
  · revert h; decide
  · exact ho.2.2.2.2.1.1 h

theorem not_nul_spaced {ts : List (List Char)} (h : ∀ t ∈ ts, '\x00' ∉ t) : '\x00' ∉ spacedText ts := by
  intro hc
  rcases mem_spacedText hc with h' | ⟨t, ht, h'⟩
  · revert h'; decide
  · exact h t ht h'

theorem nodeProps_eq (n : Node) : (shownProps · (jsNodeProp n) listedProps) = (shownProps · (jsObjectProp n.obj) listedProps) := by
  funext num; simp [listedProps, shownProps, jsNodeProp]

theorem wayProps_eq (w : Way) : (shownProps · (jsWayProp w) listedProps) = (shownProps · (jsObjectProp w.obj) listedProps) := by
  funext num; simp [listedProps, shownProps, jsWayProp]

theorem relationProps_eq (r : Relation) :
    (shownProps · (jsRelationProp r) listedProps) = (shownProps · (jsObjectProp r.obj) listedProps) := by
  funext num; simp [listedProps, shownProps, jsRelationProp]

theorem listNode_ok {num : ℚ → List Char} (hn : NumberText num) {n : Node} (h : PlainObject num (.node n))
    (out : List UInt8) : listNode num out n = .ok (out ++ printed (callLines num (.call (.obj (.node n))))) := by
  obtain ⟨hl, ho⟩ := h
  have hx : (jsToHexWkb false (.point n.position)).getD .undefined = .str (utf16 (hexDump (pointWkb n.position false))) := by
    simp only [jsToHexWkb, (hex_wkb_is_dump n.position (LineString.new [] false 0) false).1]
    exact congrArg (fun x => JsVal.str x) (v8New_utf8 (hexDump_not_nul _))
  have hw : (jsToWkt false (.point n.position)).getD .undefined = .str (utf16 (pointWkt n.position false)) := by
    simp only [jsToWkt]
    exact congrArg (fun x => JsVal.str x) (v8New_utf8 (wkt_not_nul n.position (LineString.new [] false 0) false).1)
  have e : nodeLine num ((attrTexts n.obj).map utf16) (.point n.position) = utf16 (objectLine num (.node n)) := by
    unfold nodeLine
    rw [hx, hw]
    simp only [objectLine]
    rw [← spaced_utf16]
    simp only [List.map_append, List.map_cons, List.map_nil, jsShow, jsGeomProp, if_true, jsLit_eq, ← utf16_append']
    simp [xy, Position.lon, Position.lat]
  have hp : Printable (objectLine num (.node n)) := by
    refine printable_short (not_nul_spaced ?_) hl
    intro t ht
    rcases List.mem_append.1 ht with ht | ht
    · rcases List.mem_cons.1 ht with rfl | ht
      · decide
      · exact attrs_not_nul ho ht
    · simp only [List.mem_cons, List.not_mem_nil, or_false] at ht
      rcases ht with rfl | rfl | rfl | rfl
      · exact fun hc => (hn.2 _ _ hc).1 rfl
      · exact fun hc => (hn.2 _ _ hc).1 rfl
      · exact (wkt_not_nul n.position (LineString.new [] false 0) false).1
      · simp only [List.cons_append, List.mem_cons, List.mem_append, not_or, List.not_mem_nil, not_false_iff, and_true]
        exact ⟨by decide, hexDump_not_nul _, by decide⟩
  unfold listNode
  rw [congrFun (nodeProps_eq n) num, shown_attrs hn ho, bind_ok, e, printText_ok _ _ hp, bind_ok,
    listTags_ok ho.2.2.2.2.2, List.append_assoc, ← printed_one, ← printed_append]
  simp [callLines, objTags, partLines]

theorem range_lines {α : Type} (l : List α) (line : α → List Char) :
    (List.range l.length).flatMap (fun i => ((l[i]?).map line).toList) = l.map line := by
  induction l with
  | nil => rfl
  | cons a l ih =>
    rw [List.length_cons, List.range_succ_eq_map, List.flatMap_cons, List.flatMap_map, List.map_cons, ← ih]
    simp

theorem intDec_short {n : Int} (h : |n| ≤ 9007199254740992) : (intDec n).length ≤ 17 := by
  have := natDec_length_le n.natAbs 16 (by decide) (by rw [Int.abs_eq_natAbs] at h; omega)
  unfold intDec
  split
  · rw [List.length_cons]; omega
  · omega

theorem intDec_not_nul (n : Int) : '\x00' ∉ intDec n := by
  intro h
  rcases intDec_chars n _ h with h | h
  · revert h; decide
  · revert h; decide

theorem refs_ok {num : ℚ → List Char} (hn : NumberText num) (nodes : List WayNode) (hl : nodes.length ≤ 2147483648)
    (hr : ∀ n ∈ nodes, |n.ref| ≤ 9007199254740992) (out : List UInt8) :
    callChain (listRef num nodes) out (List.range nodes.length) =
      .ok (out ++ printed (nodes.map fun n => " ref ".toList ++ intDec n.ref)) := by
  rw [callChain_prints (listRef num nodes)
    (fun i => ((nodes[i]?).map fun n => " ref ".toList ++ intDec n.ref).toList) (List.range nodes.length) out, range_lines]
  intro i hi out
  have hi := List.mem_range.1 hi
  have hg := List.getElem?_eq_getElem hi
  have hm : nodes[i] ∈ nodes := List.getElem_mem hi
  have hp : Printable (" ref ".toList ++ intDec nodes[i].ref) := by
    apply printable_short
    · simp only [List.mem_append, not_or]; exact ⟨by decide +kernel, intDec_not_nul _⟩
    · have h1 := intDec_short (hr _ hm)
      have h2 : " ref ".toList.length = 5 := by decide +kernel
      rw [List.length_append, h2]; omega
  rw [hg, Option.map_some, Option.toList_some, printed_one, ← printText_ok _ _ hp]
  unfold listRef
  rw [(script_lists_partial nodes [] i (by omega)).1 _ hg (hr _ hm), bind_ok, jsShow, hn.1 _ (hr _ hm), jsLit_eq, jsLit_eq,
    ← utf16_append']

theorem members_ok {num : ℚ → List Char} (hn : NumberText num) (members : List Member) (hl : members.length ≤ 2147483648)
    (hr : ∀ m ∈ members, (m.type = 'n' ∨ m.type = 'w' ∨ m.type = 'r') ∧ |m.ref| ≤ 9007199254740992 ∧ OsmText m.role)
    (out : List UInt8) :
    callChain (listMember num members) out (List.range members.length) =
      .ok (out ++ printed (members.map fun m =>
        ' ' :: spacedText ["member".toList, [m.type], intDec m.ref, m.role.toList])) := by
  rw [callChain_prints (listMember num members)
    (fun i => ((members[i]?).map fun m => ' ' :: spacedText ["member".toList, [m.type], intDec m.ref, m.role.toList]).toList)
    (List.range members.length) out, range_lines]
  intro i hi out
  have hi := List.mem_range.1 hi
  have hg := List.getElem?_eq_getElem hi
  obtain ⟨h1, h2, h3⟩ := hr _ (List.getElem_mem hi)
  rw [hg, Option.map_some, Option.toList_some, printed_one]
  unfold listMember
  rw [(script_lists_partial [] members i (by omega)).2 _ hg, bind_ok]
  generalize members[i] = m at h1 h2 h3 ⊢
  obtain ⟨e1, e2, e3⟩ := script_member m h1 h2 h3
  have hps : shownProps num (jsMemberProp m) ["type", "ref", "role"] =
      .ok ([[m.type], intDec m.ref, m.role.toList].map utf16) := by
    simp only [shownProps, e1, e2, e3, bind_ok, Except.map, jsText, jsShow, hn.1 _ h2, jsLit_eq, List.map_cons, List.map_nil,
      String.toList_singleton]
  have hp : Printable (' ' :: spacedText ["member".toList, [m.type], intDec m.ref, m.role.toList]) := by
    apply printable_short
    · have : '\x00' ∉ spacedText ["member".toList, [m.type], intDec m.ref, m.role.toList] := by
        apply not_nul_spaced
        intro t ht
        simp only [List.mem_cons, List.not_mem_nil, or_false] at ht
        rcases ht with rfl | rfl | rfl | rfl
        · decide +kernel
        · rcases h1 with h | h | h <;> rw [h] <;> decide
        · exact intDec_not_nul _
        · exact h3.1
      simp only [List.mem_cons, not_or]
      exact ⟨by decide, this⟩
    · have a1 := intDec_short h2
      have a2 := h3.2
      have a3 : "member".toList.length = 6 := by decide +kernel
      simp only [spacedText, List.length_cons, List.length_append, List.length_nil]
      omega
  dsimp only
  rw [hps, bind_ok]
  have e : jsLit [' '] ++ spaced (jsLit "member".toList :: [[m.type], intDec m.ref, m.role.toList].map utf16) =
      utf16 (' ' :: spacedText ["member".toList, [m.type], intDec m.ref, m.role.toList]) := by
    rw [show jsLit "member".toList :: [[m.type], intDec m.ref, m.role.toList].map utf16 =
      ["member".toList, [m.type], intDec m.ref, m.role.toList].map utf16 from rfl, spaced_utf16, jsLit_eq, ← utf16_append']
    rfl
  rw [e]
  exact printText_ok _ _ hp

theorem listWay_ok {num : ℚ → List Char} (hn : NumberText num) {w : Way} (h : PlainObject num (.way w))
    (out : List UInt8) : listWay num out w = .ok (out ++ printed (callLines num (.call (.obj (.way w))))) := by
  obtain ⟨hl, ho, hc, hr⟩ := h
  have e : spaced (jsLit "way".toList :: (attrTexts w.obj).map utf16 ++
      [jsShow num ((jsToWkt false (jsWayLine w false)).getD .undefined)]) = utf16 (objectLine num (.way w)) := by
    simp only [objectLine]
    rw [← spaced_utf16, List.map_append, List.map_cons, jsLit_eq]
    congr 2
    unfold jsWayLine
    split
    · simp only [jsToWkt, Option.getD_some, jsShow, List.map_cons, List.map_nil]
      exact congrArg (fun x => [x]) (v8New_utf8 (wkt_not_nul ⟨0, 0⟩ (LineString.new w.nodes false w.obj.id) false).2.1)
    · rfl
  have hp : Printable (objectLine num (.way w)) := by
    refine printable_short (not_nul_spaced ?_) hl
    intro t ht
    rcases List.mem_append.1 ht with ht | ht
    · rcases List.mem_cons.1 ht with rfl | ht
      · decide
      · exact attrs_not_nul ho ht
    · rw [List.mem_singleton] at ht
      subst ht
      split
      · exact (wkt_not_nul ⟨0, 0⟩ _ false).2.1
      · decide +kernel
  unfold listWay
  rw [congrFun (wayProps_eq w) num, shown_attrs hn ho, bind_ok, e, printText_ok _ _ hp, bind_ok,
    listTags_ok ho.2.2.2.2.2, bind_ok, refs_ok hn w.nodes hc hr, List.append_assoc, List.append_assoc, ← printed_one,
    ← printed_append, ← printed_append]
  simp [callLines, objTags, partLines]

theorem listRelation_ok {num : ℚ → List Char} (hn : NumberText num) {r : Relation} (h : PlainObject num (.relation r))
    (out : List UInt8) :
    listRelation num out r = .ok (out ++ printed (callLines num (.call (.obj (.relation r))))) := by
  obtain ⟨hl, ho, hc, hr⟩ := h
  have e : spaced (jsLit "relation".toList :: (attrTexts r.obj).map utf16) = utf16 (objectLine num (.relation r)) := by
    simp only [objectLine]
    rw [← spaced_utf16, List.map_cons, jsLit_eq]
  have hp : Printable (objectLine num (.relation r)) := by
    refine printable_short (not_nul_spaced ?_) hl
    intro t ht
    rcases List.mem_cons.1 ht with rfl | ht
    · decide
    · exact attrs_not_nul ho ht
  unfold listRelation
  rw [congrFun (relationProps_eq r) num, shown_attrs hn ho, bind_ok, e, printText_ok _ _ hp, bind_ok,
    listTags_ok ho.2.2.2.2.2, bind_ok, members_ok hn r.members hc hr, List.append_assoc, List.append_assoc, ← printed_one,
    ← printed_append, ← printed_append]
  simp [callLines, objTags, partLines]

theorem listArea_ok {num : ℚ → List Char} (hn : NumberText num) {a : Area} (ho : PlainAttrs a.obj) (g : Option Geom)
    (out : List UInt8) : listArea num out a = .ok (out ++ printed (callLines num (.area a g))) := by
  obtain ⟨e1, e2, e3, e4, -, e6⟩ := shown_attr hn ho
  have hprop : ∀ name ∈ ["id", "version", "timestamp", "uid", "changeset"],
      jsAreaProp a.obj [] name = jsObjectProp a.obj name := by
    intro name hm
    simp only [List.mem_cons, List.not_mem_nil, or_false] at hm
    rcases hm with rfl | rfl | rfl | rfl | rfl <;> simp [jsAreaProp]
  rw [← hprop _ (by simp)] at e1 e2 e3 e4 e6
  have e0 : ∃ v, jsAreaProp a.obj [] "from" = .ok v ∧
      jsShow num v = utf16 (if areaFromWay a.obj.id then "way".toList else "relation".toList) := by
    refine ⟨.str (v8New (textBytes (if areaFromWay a.obj.id then "way" else "relation"))), by
      simp only [jsAreaProp, if_true], ?_⟩
    rw [jsShow]
    cases areaFromWay a.obj.id
    · exact v8New_utf8 (cs := "relation".toList) (by decide +kernel)
    · exact v8New_utf8 (cs := "way".toList) (by decide +kernel)
  have hps := shownProps_cons e0 (shownProps_cons e1 (shownProps_cons e2 (shownProps_cons e3 (shownProps_cons e4
    (shownProps_cons (names := []) (ts := []) e6 rfl)))))
  have hp : Printable (areaLine a) := by
    have k : ∀ n : Int, |n| ≤ 9007199254740992 → (intDec n).length ≤ 17 := fun n h => intDec_short h
    have b : ∀ n : Int, InS32 n → |n| ≤ 9007199254740992 := by
      intro n h; unfold InS32 at h; rw [abs_le]; omega
    have k1 := k _ ho.1
    have k2 := k _ ho.2.1
    have k3 := k _ (b _ ho.2.2.1)
    have k4 := k _ (b _ ho.2.2.2.1)
    have k5 : (Time.toIso a.obj.timestamp).length ≤ 20 := by
      unfold Time.toIso
      split
      · simp
      · dsimp only
        split
        · omega
        · simp
    have k6 : (if areaFromWay a.obj.id then "way".toList else "relation".toList).length ≤ 8 := by
      split <;> decide +kernel
    have k7 : "area".toList.length = 4 ∧ "from".toList.length = 4 := by decide +kernel
    apply printable_short
    · apply not_nul_spaced
      intro t ht
      simp only [List.mem_cons, List.not_mem_nil, or_false] at ht
      rcases ht with rfl | rfl | rfl | rfl | rfl | rfl | rfl | rfl
      · decide +kernel
      · decide +kernel
      · split <;> decide +kernel
      · exact intDec_not_nul _
      · exact intDec_not_nul _
      · exact toIso_not_nul _
      · exact intDec_not_nul _
      · exact intDec_not_nul _
    · unfold areaLine
      simp only [spacedText, List.length_cons, List.length_append]
      omega
  unfold listArea
  rw [hps, bind_ok]
  have e : spaced (jsLit "area".toList :: jsLit "from".toList ::
      [if areaFromWay a.obj.id then "way".toList else "relation".toList,
       intDec a.obj.id, intDec a.obj.version, Time.toIso a.obj.timestamp, intDec a.obj.uid, intDec a.obj.changeset].map utf16) =
      utf16 (areaLine a) := by
    unfold areaLine
    rw [← spaced_utf16]
    rfl
  rw [e, printText_ok _ _ hp, bind_ok, listTags_ok ho.2.2.2.2.2, List.append_assoc, ← printed_one, ← printed_append]
  rfl

theorem listWholeCall_ok {num : ℚ → List Char} (hn : NumberText num) {c : WholeCall} (h : PlainCall num c)
    (out : List UInt8) : listWholeCall num out c = .ok (out ++ printed (callLines num c)) := by
  have hnone : out = out ++ printed [] := by simp [printed, utf8]
  match c, h with
  | .area a g, h => exact listArea_ok hn h g out
  | .call (.init m), _ =>
    rw [callLines, printed_one, ← printText_ok _ _ (printable_short (by decide +kernel) (by decide +kernel))]
    rfl
  | .call .final, _ =>
    rw [callLines, printed_one, ← printText_ok _ _ (printable_short (by decide +kernel) (by decide +kernel))]
    rfl
  | .call (.obj (.node n)), h => exact listNode_ok hn h out
  | .call (.obj (.way n)), h => exact listWay_ok hn h out
  | .call (.obj (.relation n)), h => exact listRelation_ok hn h out
  | .call (.before t), _ => exact congrArg Except.ok hnone
  | .call (.after t), _ => exact congrArg Except.ok hnone

/-- **C115 (partial: see `listing_repeated_key`, `listing_number_key`).**  What the scripts print for objects all of which
a script can see: for each object and area, in order, a line with its attributes (and position, line or origin), a line
for each tag, and a line for each node of a way and each member of a relation. -/
theorem listing_lines_partial {num : ℚ → List Char} (hn : NumberText num) (cs : List WholeCall)
    (h : ∀ c ∈ cs, PlainCall num c) :
    callChain (listWholeCall num) [] cs = .ok (printed (cs.flatMap (callLines num))) := by
  rw [callChain_prints (listWholeCall num) (callLines num) cs [] fun c hc out => listWholeCall_ok hn (h c hc) out]
  rfl

end Osmium
