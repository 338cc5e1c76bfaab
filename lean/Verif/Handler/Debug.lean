import Verif.Input.Model
import Verif.Xml.NumberLemmas
import Verif.Time.Props
/-
C70: the text the debug handler writes (handler/debug.hpp) shows everything about the objects.
-/
namespace Osmium

/-- One line, without the newline. (handler/debug.hpp 48-136) -/
abbrev Line := List Char

/-- Characters of a text. (helper for statements and proofs, no counterpart in /repo) -/
def txt (s : String) : List Char := s.toList

/-- handler/debug.hpp:123-145 `print_meta`; `multi` is `m_has_multiple_object_versions`. -/
def debugMeta (multi : Bool) (o : Obj) : List Line :=
  [txt "  id=" ++ Text.intDec o.id,
   txt "  version=" ++ Text.intDec o.version,
   txt "  uid=" ++ Text.intDec o.uid,
   txt "  user=|" ++ o.user.toList ++ ['|'],
   txt "  changeset=" ++ Text.intDec o.changeset,
   txt "  timestamp=" ++ Time.toIso o.timestamp] ++
  (if multi then [txt "  visible=" ++ (if o.visible then txt "yes" else txt "no"),
     txt "  endtime=" ++ Time.toIso o.endtime] else []) ++
  [txt "  tags: (count=" ++ Text.natDec o.tags.length ++ [')']] ++
  o.tags.map (fun t => txt "    k=|" ++ t.key.toList ++ txt "| v=|" ++ t.value.toList ++ ['|'])

/-- handler/debug.hpp:63-69 `node`, 80-89 `way`, 100-108 `relation`.  `std::fixed` with a precision of 7 is
`%.7f`. -/
def debugObj (multi : Bool) : OsmObj → List Line
  | .node n => [txt "node:"] ++ debugMeta multi n.obj ++
      [txt "  lon=" ++ Text.fmt7 (fixToDouble n.position.x),
       txt "  lat=" ++ Text.fmt7 (fixToDouble n.position.y)]
  | .way w => [txt "way:"] ++ debugMeta multi w.obj ++
      [txt "  node_count=" ++ Text.natDec w.nodes.length, txt "  nodes:"] ++
      w.nodes.map (fun n => txt "    ref=" ++ Text.intDec n.ref)
  | .relation r => [txt "relation:"] ++ debugMeta multi r.obj ++
      [txt "  members: (count=" ++ Text.natDec r.members.length ++ [')']] ++
      r.members.map (fun m => txt "    type=" ++ [m.type] ++ txt " ref=" ++ Text.intDec m.ref ++
        txt " role=|" ++ m.role.toList ++ ['|'])

/-- The name of a type in the callbacks (handler/debug.hpp:59-116). -/
def typePlural : ObjType → List Char
  | .node => txt "nodes"
  | .way => txt "ways"
  | .relation => txt "relations"
  | _ => []

/-- handler/debug.hpp:48-120 the callbacks: the lines, and `m_has_multiple_object_versions` afterwards.
`bt` is the text for the bounds, which depends on the state of the stream. -/
def debugStep (bt : Bounds → Line) (multi : Bool) : Cb → List Line × Bool
  | .init m => ([txt "meta:", txt "  generator=" ++ m.generator.toList] ++
      (if m.bounds.defined then [txt "  bounds=" ++ bt m.bounds] else []), multi || m.multi)
  | .before t => ([txt "before_" ++ typePlural t], multi)
  | .obj o => (debugObj multi o, multi)
  | .after t => ([txt "after_" ++ typePlural t], multi)
  | .final => ([txt "final"], multi)

/-- All lines. (handler/debug.hpp 48-136, for all callbacks) -/
def debugLines (bt : Bounds → Line) : Bool → List Cb → List Line
  | _, [] => []
  | multi, c :: cs => (debugStep bt multi c).1 ++ debugLines bt (debugStep bt multi c).2 cs

/-- The text written: each line with a newline. (`std::endl` in handler/debug.hpp 48-136) -/
def debugText (bt : Bounds → Line) (multi : Bool) (cs : List Cb) : List Char :=
  (debugLines bt multi cs).flatMap (· ++ ['\n'])

namespace Spec

/-- What a reader of the dump is to know: the callbacks with all attributes, tags, positions of nodes,
node references and members.  (Not: the bounds, and for files with one version of each object the visible
flag and the end time.) (specification, no counterpart in /repo) -/
inductive Shown
  | start (generator : String)
  | before (t : ObjType)
  | obj (o : OsmObj) (history : Option (Bool × Int))
  | after (t : ObjType)
  | final
deriving DecidableEq

/-- The attributes without visible flag and end time. (specification, no counterpart in /repo) -/
def plain (o : Obj) : Obj := { o with visible := true, endtime := 0 }

/-- Without positions of the nodes in ways. (specification, no counterpart in /repo) -/
def plainObj : OsmObj → OsmObj
  | .node n => .node ⟨plain n.obj, n.position⟩
  | .way w => .way ⟨plain w.obj, w.nodes.map (fun n => { ref := n.ref })⟩
  | .relation r => .relation ⟨plain r.obj, r.members⟩

/-- What is to be shown. (specification, no counterpart in /repo) -/
def shows : Bool → List Cb → List Shown
  | _, [] => []
  | f, .init m :: cs => .start m.generator :: shows (f || m.multi) cs
  | f, .before t :: cs => .before t :: shows f cs
  | f, .obj o :: cs => .obj (plainObj o) (if f then some (o.obj.visible, o.obj.endtime) else none) :: shows f cs
  | f, .after t :: cs => .after t :: shows f cs
  | f, .final :: cs => .final :: shows f cs

/-- No newline in the text. (specification, no counterpart in /repo) -/
def OneLine (s : String) : Prop := '\n' ∉ s.toList

/-- A time that is unset or in the years 0 to 9999. -/
def TimeOk (t : Int) : Prop := t = 0 ∨ InIsoRange t

/-- Attributes that can be shown: no newline in texts, no bar in keys. (specification, no counterpart in /repo) -/
structure DumpAttrs (o : Obj) : Prop where
  user : OneLine o.user
  key : ∀ t ∈ o.tags, OneLine t.key ∧ '|' ∉ t.key.toList
  value : ∀ t ∈ o.tags, OneLine t.value
  timestamp : TimeOk o.timestamp
  endtime : TimeOk o.endtime

/-- Objects that can be shown. (specification, no counterpart in /repo) -/
def DumpObj : OsmObj → Prop
  | .node n => DumpAttrs n.obj ∧ n.position.WF
  | .way w => DumpAttrs w.obj
  | .relation r => DumpAttrs r.obj ∧ ∀ m ∈ r.members, OneLine m.role ∧ m.type ≠ '\n'

/-- Callbacks that can be shown. (specification, no counterpart in /repo) -/
def DumpCb : Cb → Prop
  | .init m => OneLine m.generator
  | .before t => t = .node ∨ t = .way ∨ t = .relation
  | .obj o => DumpObj o
  | .after t => t = .node ∨ t = .way ∨ t = .relation
  | .final => True

end Spec
open Spec

/-! ### Lines -/

/-- Two texts that end at the first `c` are determined by what is before and after it. -/
theorem sep_inj (c : Char) {x y r s : List Char} (hx : c ∉ x) (hy : c ∉ y)
    (e : x ++ c :: r = y ++ c :: s) : x = y ∧ r = s := by
  induction x generalizing y with
  | nil =>
    cases y with
    | nil => simp at e; exact ⟨rfl, e⟩
    | cons d y => simp only [List.nil_append, List.cons_append, List.cons.injEq] at e; simp [e.1] at hy
  | cons d x ih =>
    cases y with
    | nil => simp only [List.nil_append, List.cons_append, List.cons.injEq] at e; simp [e.1] at hx
    | cons d' y =>
      simp only [List.cons_append, List.cons.injEq] at e
      obtain ⟨e1, e2⟩ := ih (fun h => hx (by simp [h])) (fun h => hy (by simp [h])) e.2
      exact ⟨by rw [e.1, e1], e2⟩

theorem lines_injective {a b : List Line} (ha : ∀ l ∈ a, '\n' ∉ l) (hb : ∀ l ∈ b, '\n' ∉ l)
    (h : a.flatMap (· ++ ['\n']) = b.flatMap (· ++ ['\n'])) : a = b := by
  induction a generalizing b with
  | nil =>
    cases b with
    | nil => rfl
    | cons y b => simp at h
  | cons x a ih =>
    cases b with
    | nil => simp at h
    | cons y b =>
      simp only [List.flatMap_cons, List.append_assoc, List.singleton_append] at h
      obtain ⟨e1, e2⟩ := sep_inj '\n' (ha x (by simp)) (hb y (by simp)) h
      rw [e1, ih (fun l hl => ha l (by simp [hl])) (fun l hl => hb l (by simp [hl])) e2]

theorem natDec_inj {m n : Nat} (h : Text.natDec m = Text.natDec n) : m = n := by
  have v1 := Text.digitsVal_natDec m [] (by simp [Text.NoDigitHead])
  have v2 := Text.digitsVal_natDec n [] (by simp [Text.NoDigitHead])
  rw [h] at v1
  omega

theorem intDec_inj {m n : Int} (h : Text.intDec m = Text.intDec n) : m = n := by
  have v1 := Text.strtoZ_intDec m [] (by simp [Text.NoDigitHead])
  have v2 := Text.strtoZ_intDec n [] (by simp [Text.NoDigitHead])
  rw [h] at v1
  omega

theorem intDec_inj_append {m n : Int} {x y : List Char} (hx : Text.NoDigitHead x) (hy : Text.NoDigitHead y)
    (h : Text.intDec m ++ x = Text.intDec n ++ y) : m = n ∧ x = y := by
  have v1 := Text.strtoZ_intDec m x hx
  have v2 := Text.strtoZ_intDec n y hy
  rw [h] at v1
  have : m = n := by omega
  subst this
  exact ⟨rfl, List.append_cancel_left h⟩

theorem toIso_inj {s t : Int} (hs : TimeOk s) (ht : TimeOk t) (h : Time.toIso s = Time.toIso t) : s = t := by
  have z : Time.toIso 0 = [] := rfl
  have pz : Time.parseIso [] = none := rfl
  by_cases h0 : s = 0
  · by_cases h1 : t = 0
    · omega
    · have := iso_roundtrip t h1 (ht.resolve_left h1)
      rw [← h, h0, z, pz] at this
      cases this
  · have e := iso_roundtrip s h0 (hs.resolve_left h0)
    by_cases h1 : t = 0
    · rw [h, h1, z, pz] at e; cases e
    · have e' := iso_roundtrip t h1 (ht.resolve_left h1)
      rw [h, e'] at e
      simpa using e.symm

theorem fmt7_inj {x y : Int} (hx : InS32 x) (hy : InS32 y)
    (h : Text.fmt7 (fixToDouble x) = Text.fmt7 (fixToDouble y)) : x = y := by
  have e1 := fix_text_fix x hx
  have e2 := fix_text_fix y hy
  rw [h, e2] at e1
  simpa using e1.symm

theorem tagLine_inj {s t : Tag} (hs : '|' ∉ s.key.toList) (ht : '|' ∉ t.key.toList)
    (h : txt "    k=|" ++ s.key.toList ++ txt "| v=|" ++ s.value.toList ++ ['|'] =
      txt "    k=|" ++ t.key.toList ++ txt "| v=|" ++ t.value.toList ++ ['|']) : s = t := by
  simp only [List.append_assoc, List.append_cancel_left_eq] at h
  have e : txt "| v=|" = '|' :: txt " v=|" := rfl
  rw [e] at h
  simp only [List.cons_append] at h
  obtain ⟨h1, h2⟩ := sep_inj '|' hs ht h
  simp only [List.append_cancel_left_eq, List.append_cancel_right_eq] at h2
  cases s; cases t
  simp only [Tag.mk.injEq]
  exact ⟨String.toList_injective h1, String.toList_injective h2⟩

theorem memberLine_inj {m n : Member}
    (h : txt "    type=" ++ [m.type] ++ txt " ref=" ++ Text.intDec m.ref ++ txt " role=|" ++ m.role.toList ++ ['|'] =
      txt "    type=" ++ [n.type] ++ txt " ref=" ++ Text.intDec n.ref ++ txt " role=|" ++ n.role.toList ++ ['|']) :
    m = n := by
  obtain ⟨mt, mr, mo⟩ := m
  obtain ⟨nt, nr, no⟩ := n
  simp only [List.append_assoc, List.append_cancel_left_eq, List.singleton_append, List.cons_append, List.cons.injEq] at h
  obtain ⟨h1, h2⟩ := h
  have nd : ∀ x, Text.NoDigitHead (txt " role=|" ++ x) := by
    intro x c hc
    have e : txt " role=|" = ' ' :: txt "role=|" := rfl
    rw [e] at hc
    simp only [List.cons_append, List.head?_cons, Option.some.injEq] at hc
    subst hc
    decide
  obtain ⟨h3, h4⟩ := intDec_inj_append (nd _) (nd _) h2
  simp only [List.append_cancel_left_eq, List.append_cancel_right_eq] at h4
  simp only [Member.mk.injEq]
  exact ⟨h1, h3, String.toList_injective h4⟩

theorem map_inj_on {α β : Type} {f : α → β} {P : α → Prop} (hf : ∀ x y, P x → P y → f x = f y → x = y)
    {a b : List α} (ha : ∀ x ∈ a, P x) (hb : ∀ x ∈ b, P x) (h : a.map f = b.map f) : a = b := by
  induction a generalizing b with
  | nil => cases b with
    | nil => rfl
    | cons y b => simp at h
  | cons x a ih => cases b with
    | nil => simp at h
    | cons y b =>
      simp only [List.map_cons, List.cons.injEq] at h
      rw [hf x y (ha x (by simp)) (hb y (by simp)) h.1,
        ih (fun x hx => ha x (by simp [hx])) (fun x hx => hb x (by simp [hx])) h.2]

theorem visible_ne_tags (a b : List Char) : txt "  visible=" ++ a ≠ txt "  tags: (count=" ++ b := by
  have e1 : txt "  visible=" = ' ' :: ' ' :: 'v' :: txt "isible=" := rfl
  have e2 : txt "  tags: (count=" = ' ' :: ' ' :: 't' :: txt "ags: (count=" := rfl
  rw [e1, e2]
  simp

/-- The lines of the attributes determine the attributes and what follows. -/
theorem debugMeta_inj {f f' : Bool} {o o' : Obj} (ho : DumpAttrs o) (ho' : DumpAttrs o') {X X' : List Line}
    (h : debugMeta f o ++ X = debugMeta f' o' ++ X') :
    plain o = plain o' ∧ f = f' ∧ (f = true → o.visible = o'.visible ∧ o.endtime = o'.endtime) ∧ X = X' := by
  unfold debugMeta at h
  simp only [List.append_assoc, List.cons_append, List.nil_append, List.cons.injEq,
    List.append_cancel_left_eq] at h
  obtain ⟨h1, h2, h3, h4, h5, h6, h7⟩ := h
  have g1 := intDec_inj h1
  have g2 := intDec_inj h2
  have g3 := intDec_inj h3
  rw [List.append_cancel_right_eq] at h4
  have g4 := String.toList_injective h4
  have g5 := intDec_inj h5
  have g6 := toIso_inj ho.timestamp ho'.timestamp h6
  have tail : ∀ {Y Y' : List Line},
      (txt "  tags: (count=" ++ (Text.natDec o.tags.length ++ [')'])) ::
        (o.tags.map (fun t => txt "    k=|" ++ (t.key.toList ++ (txt "| v=|" ++ (t.value.toList ++ ['|'])))) ++ Y) =
      (txt "  tags: (count=" ++ (Text.natDec o'.tags.length ++ [')'])) ::
        (o'.tags.map (fun t => txt "    k=|" ++ (t.key.toList ++ (txt "| v=|" ++ (t.value.toList ++ ['|'])))) ++ Y') →
      o.tags = o'.tags ∧ Y = Y' := by
    intro Y Y' h
    simp only [List.cons.injEq, List.append_cancel_left_eq, List.append_cancel_right_eq] at h
    obtain ⟨k1, k2⟩ := h
    have hl := natDec_inj k1
    obtain ⟨k3, k4⟩ := List.append_inj k2 (by simpa using hl)
    refine ⟨map_inj_on (P := fun t => '|' ∉ t.key.toList) ?_ (fun t ht => (ho.key t ht).2)
      (fun t ht => (ho'.key t ht).2) k3, k4⟩
    intro s t hs ht e
    exact tagLine_inj hs ht (by simpa only [List.append_assoc] using e)
  have fin : f = f' ∧ (f = true → o.visible = o'.visible ∧ o.endtime = o'.endtime) ∧ o.tags = o'.tags ∧ X = X' := by
    cases f with
    | false =>
      cases f' with
      | false =>
        simp only [Bool.false_eq_true, if_false, List.nil_append] at h7
        obtain ⟨k1, k2⟩ := tail h7
        exact ⟨rfl, by simp, k1, k2⟩
      | true =>
        simp only [Bool.false_eq_true, if_false, if_true, List.nil_append, List.cons_append, List.cons.injEq] at h7
        exact absurd h7.1.symm (visible_ne_tags _ _)
    | true =>
      cases f' with
      | false =>
        simp only [Bool.false_eq_true, if_false, if_true, List.nil_append, List.cons_append, List.cons.injEq] at h7
        exact absurd h7.1 (visible_ne_tags _ _)
      | true =>
        simp only [if_true, List.cons_append, List.nil_append, List.cons.injEq, List.append_cancel_left_eq] at h7
        obtain ⟨k1, k2, k3⟩ := h7
        obtain ⟨k4, k5⟩ := tail (by simpa only [List.cons.injEq, List.append_cancel_left_eq] using k3)
        refine ⟨rfl, fun _ => ⟨?_, toIso_inj ho.endtime ho'.endtime k2⟩, k4, k5⟩
        revert k1
        cases o.visible <;> cases o'.visible <;> decide
  obtain ⟨f1, f2, f3, f4⟩ := fin
  exact ⟨by simp only [plain, Obj.mk.injEq]; exact ⟨g1, g2, g5, g6, trivial, g3, g4, trivial, f3⟩, f1, f2, f4⟩

theorem debugObj_inj {f f' : Bool} {o o' : OsmObj} (ho : DumpObj o) (ho' : DumpObj o') {X X' : List Line}
    (h : debugObj f o ++ X = debugObj f' o' ++ X') :
    plainObj o = plainObj o' ∧ f = f' ∧
      (f = true → o.obj.visible = o'.obj.visible ∧ o.obj.endtime = o'.obj.endtime) ∧ X = X' := by
  have d1 : txt "node:" ≠ txt "way:" := by decide
  have d2 : txt "node:" ≠ txt "relation:" := by decide
  have d3 : txt "way:" ≠ txt "relation:" := by decide
  cases o with
  | node n =>
    cases o' with
    | node n' =>
      simp only [debugObj, List.append_assoc, List.singleton_append, List.cons_append, List.nil_append,
        List.cons.injEq, true_and] at h
      obtain ⟨k1, k2, k3, k4⟩ := debugMeta_inj ho.1 ho'.1 h
      simp only [List.cons.injEq, List.append_cancel_left_eq] at k4
      have e1 := fmt7_inj ho.2.1 ho'.2.1 k4.1
      have e2 := fmt7_inj ho.2.2 ho'.2.2 k4.2.1
      refine ⟨?_, k2, k3, k4.2.2⟩
      simp only [plainObj, k1, OsmObj.node.injEq, Node.mk.injEq, true_and]
      obtain ⟨_, ⟨x, y⟩⟩ := n
      obtain ⟨_, ⟨x', y'⟩⟩ := n'
      simp only at e1 e2
      rw [e1, e2]
    | way w' => simp only [debugObj, List.append_assoc, List.singleton_append, List.cons_append, List.cons.injEq] at h; exact absurd h.1 d1
    | relation r' => simp only [debugObj, List.append_assoc, List.singleton_append, List.cons_append, List.cons.injEq] at h; exact absurd h.1 d2
  | way w =>
    cases o' with
    | node n' => simp only [debugObj, List.append_assoc, List.singleton_append, List.cons_append, List.cons.injEq] at h; exact absurd h.1.symm d1
    | way w' =>
      simp only [debugObj, List.append_assoc, List.singleton_append, List.cons_append, List.nil_append,
        List.cons.injEq, true_and] at h
      obtain ⟨k1, k2, k3, k4⟩ := debugMeta_inj (show DumpAttrs w.obj from ho) (show DumpAttrs w'.obj from ho') h
      simp only [List.cons.injEq, List.append_cancel_left_eq, true_and] at k4
      have hl := natDec_inj k4.1
      obtain ⟨e1, e2⟩ := List.append_inj k4.2 (by simpa using hl)
      refine ⟨?_, k2, k3, e2⟩
      have e3 : w.nodes.map (·.ref) = w'.nodes.map (·.ref) := by
        refine map_inj_on (P := fun _ => True) (f := fun r : Int => txt "    ref=" ++ Text.intDec r) ?_
          (by simp) (by simp) ?_
        · intro x y _ _ e
          rw [List.append_cancel_left_eq] at e
          exact intDec_inj e
        · simpa only [List.map_map, Function.comp_def] using e1
      simp only [plainObj, k1, OsmObj.way.injEq, Way.mk.injEq, true_and]
      have e4 := congrArg (List.map (fun r : Int => ({ ref := r } : WayNode))) e3
      simpa only [List.map_map, Function.comp_def] using e4
    | relation r' => simp only [debugObj, List.append_assoc, List.singleton_append, List.cons_append, List.cons.injEq] at h; exact absurd h.1 d3
  | relation r =>
    cases o' with
    | node n' => simp only [debugObj, List.append_assoc, List.singleton_append, List.cons_append, List.cons.injEq] at h; exact absurd h.1.symm d2
    | way w' => simp only [debugObj, List.append_assoc, List.singleton_append, List.cons_append, List.cons.injEq] at h; exact absurd h.1.symm d3
    | relation r' =>
      simp only [debugObj, List.append_assoc, List.singleton_append, List.cons_append, List.nil_append,
        List.cons.injEq, true_and] at h
      obtain ⟨k1, k2, k3, k4⟩ := debugMeta_inj ho.1 ho'.1 h
      simp only [List.cons.injEq, List.append_cancel_left_eq, List.append_cancel_right_eq] at k4
      have hl := natDec_inj k4.1
      obtain ⟨e1, e2⟩ := List.append_inj k4.2 (by simpa using hl)
      refine ⟨?_, k2, k3, e2⟩
      have e3 : r.members = r'.members := by
        refine map_inj_on (P := fun _ => True) ?_ (by simp) (by simp) e1
        intro x y _ _ e
        refine memberLine_inj ?_
        simpa only [List.append_assoc, List.singleton_append, List.cons_append, List.nil_append] using e
      simp only [plainObj, k1, e3]

/-- The first character of the first line. (helper for statements and proofs, no counterpart in
/repo) -/
private def kind (ls : List Line) : Option Char := ls.head?.bind (fun l => l.head?)

theorem typePlural_inj {s t : ObjType} (hs : s = .node ∨ s = .way ∨ s = .relation)
    (ht : t = .node ∨ t = .way ∨ t = .relation) (h : typePlural s = typePlural t) : s = t := by
  rcases hs with rfl | rfl | rfl <;> rcases ht with rfl | rfl | rfl <;> revert h <;> decide

theorem debugObj_kind (f : Bool) (o : OsmObj) (X : List Line) :
    ∃ c, kind (debugObj f o ++ X) = some c ∧ (c = 'n' ∨ c = 'w' ∨ c = 'r') := by
  cases o with
  | node n => exact ⟨'n', rfl, by simp⟩
  | way n => exact ⟨'w', rfl, by simp⟩
  | relation n => exact ⟨'r', rfl, by simp⟩

theorem debugStep_kind (bt : Bounds → Line) (f : Bool) (c : Cb) (X : List Line) :
    kind ((debugStep bt f c).1 ++ X) = (match c with
      | .init _ => some 'm' | .before _ => some 'b' | .after _ => some 'a' | .final => some 'f'
      | .obj (.node _) => some 'n' | .obj (.way _) => some 'w' | .obj (.relation _) => some 'r') := by
  cases c with
  | obj o => cases o <;> rfl
  | _ => rfl

theorem debugLines_inj (bt : Bounds → Line) (f f' : Bool) (cs cs' : List Cb) (hc : ∀ c ∈ cs, DumpCb c)
    (hc' : ∀ c ∈ cs', DumpCb c) (h : debugLines bt f cs = debugLines bt f' cs') : shows f cs = shows f' cs' := by
  have kn : ∀ (g : Bool) (ds : List Cb), kind (debugLines bt g ds) ≠ some ' ' := by
    intro g ds
    cases ds with
    | nil => simp [debugLines, kind]
    | cons d ds =>
      unfold debugLines
      rw [debugStep_kind]
      cases d with
      | obj o => cases o <;> simp
      | _ => simp
  induction cs generalizing f f' cs' with
  | nil =>
    cases cs' with
    | nil => rfl
    | cons c' cs' =>
      have := congrArg kind h
      unfold debugLines at this
      rw [debugStep_kind] at this
      cases c' with
      | obj o => cases o <;> cases this
      | _ => cases this
  | cons c cs ih =>
    cases cs' with
    | nil =>
      have := congrArg kind h
      unfold debugLines at this
      rw [debugStep_kind] at this
      cases c with
      | obj o => cases o <;> cases this
      | _ => cases this
    | cons c' cs' =>
      have hk := congrArg kind h
      unfold debugLines at hk h
      rw [debugStep_kind, debugStep_kind] at hk
      have h1 := hc c (by simp)
      have h1' := hc' c' (by simp)
      have ih := fun f f' hh => ih f f' cs' (fun c h => hc c (by simp [h])) (fun c h => hc' c (by simp [h])) hh
      cases c with
      | init m =>
        cases c' with
        | init m' =>
          simp only [debugStep, List.cons_append, List.nil_append, List.cons.injEq, true_and,
            List.append_cancel_left_eq] at h
          obtain ⟨e1, e2⟩ := h
          have e1 := String.toList_injective e1
          have sp : ∀ x, txt "  bounds=" ++ x = ' ' :: (txt " bounds=" ++ x) := fun x => rfl
          have e3 : debugLines bt (f || m.multi) cs = debugLines bt (f' || m'.multi) cs' := by
            cases hb : m.bounds.defined <;> cases hb' : m'.bounds.defined <;>
              simp only [hb, hb', if_true, Bool.false_eq_true, if_false, List.nil_append, List.cons_append] at e2
            · exact e2
            · have := kn (f || m.multi) cs
              rw [e2, sp] at this
              exact absurd rfl this
            · have := kn (f' || m'.multi) cs'
              rw [← e2, sp] at this
              exact absurd rfl this
            · exact (List.cons.inj e2).2
          simp only [shows, e1, ih _ _ e3]
        | obj o => cases o <;> simp at hk
        | _ => simp at hk
      | before t =>
        cases c' with
        | before t' =>
          simp only [debugStep, List.cons_append, List.nil_append, List.cons.injEq,
            List.append_cancel_left_eq] at h
          simp only [shows, typePlural_inj h1 h1' h.1, ih _ _ h.2]
        | obj o => cases o <;> simp at hk
        | _ => simp at hk
      | after t =>
        cases c' with
        | after t' =>
          simp only [debugStep, List.cons_append, List.nil_append, List.cons.injEq,
            List.append_cancel_left_eq] at h
          simp only [shows, typePlural_inj h1 h1' h.1, ih _ _ h.2]
        | obj o => cases o <;> simp at hk
        | _ => simp at hk
      | final =>
        cases c' with
        | final =>
          simp only [debugStep, List.cons_append, List.nil_append, List.cons.injEq, true_and] at h
          simp only [shows, ih _ _ h]
        | obj o => cases o <;> simp at hk
        | _ => simp at hk
      | obj o =>
        cases c' with
        | obj o' =>
          simp only [debugStep] at h
          obtain ⟨k1, k2, k3, k4⟩ := debugObj_inj h1 h1' h
          subst k2
          cases f with
          | false => simp only [shows, k1, ih _ _ k4, Bool.false_eq_true, if_false]
          | true => simp only [shows, k1, ih _ _ k4, if_true, (k3 rfl).1, (k3 rfl).2]
        | _ => cases o <;> simp at hk

/-! ### No newline in a line -/

theorem natDec_line (n : Nat) : '\n' ∉ Text.natDec n := by
  intro h
  have := Text.natDec_digits n _ h
  revert this
  decide

theorem intDec_line (n : Int) : '\n' ∉ Text.intDec n := by
  unfold Text.intDec
  split
  · simp only [List.mem_cons, not_or]
    exact ⟨by decide, natDec_line _⟩
  · exact natDec_line _

theorem dec2_line (n : Int) : '\n' ∉ Time.dec2 n := by
  have d : ∀ k : Nat, k < 10 → Text.digitChar k ≠ '\n' := by decide
  unfold Time.dec2
  simp only [List.mem_cons, List.not_mem_nil, or_false, not_or]
  exact ⟨fun e => d _ (Nat.mod_lt _ (by decide)) e.symm, fun e => d _ (Nat.mod_lt _ (by decide)) e.symm⟩

theorem toIso_line (t : Int) : '\n' ∉ Time.toIso t := by
  unfold Time.toIso
  split
  · simp
  · simp only
    split
    · unfold Time.isoText
      simp only [List.mem_append, List.mem_cons, List.not_mem_nil, or_false, not_or, intDec_line, dec2_line,
        not_false_eq_true, true_and, and_true]
      decide
    · simp

theorem fmt7_line (q : ℚ) : '\n' ∉ Text.fmt7 q := by
  unfold Text.fmt7
  simp only [List.mem_append, List.mem_cons, not_or]
  refine ⟨⟨?_, natDec_line _⟩, by decide, ?_⟩
  · split <;> simp
  · intro h
    have := Text.dec7_digits _ _ h
    revert this
    decide

theorem debugMeta_line {f : Bool} {o : Obj} (h : DumpAttrs o) : ∀ l ∈ debugMeta f o, '\n' ∉ l := by
  have hu := h.user
  unfold OneLine at hu
  have c1 : '\n' ∉ txt "  id=" := by decide
  have c2 : '\n' ∉ txt "  version=" := by decide
  have c3 : '\n' ∉ txt "  uid=" := by decide
  have c4 : '\n' ∉ txt "  user=|" := by decide
  have c5 : '\n' ∉ txt "  changeset=" := by decide
  have c6 : '\n' ∉ txt "  timestamp=" := by decide
  have c7 : '\n' ∉ txt "  visible=" := by decide
  have c8 : '\n' ∉ txt "  endtime=" := by decide
  have c9 : '\n' ∉ txt "  tags: (count=" := by decide
  have c10 : '\n' ∉ txt "    k=|" := by decide
  have c11 : '\n' ∉ txt "| v=|" := by decide
  have c12 : '\n' ∉ txt "yes" := by decide
  have c13 : '\n' ∉ txt "no" := by decide
  have c14 : ¬ '\n' = '|' := by decide
  have c15 : ¬ '\n' = ')' := by decide
  intro l hl
  unfold debugMeta at hl
  simp only [List.mem_append, List.mem_cons, List.not_mem_nil, or_false, List.mem_map] at hl
  rcases hl with (((h1 | h1 | h1 | h1 | h1 | h1) | h1) | h1) | ⟨t, ht, rfl⟩
  · subst h1; simp only [List.mem_append, c1, intDec_line, or_self, not_false_eq_true]
  · subst h1; simp only [List.mem_append, c2, intDec_line, or_self, not_false_eq_true]
  · subst h1; simp only [List.mem_append, c3, intDec_line, or_self, not_false_eq_true]
  · subst h1; simp only [List.mem_append, c4, hu, List.mem_singleton, c14, or_self, not_false_eq_true]
  · subst h1; simp only [List.mem_append, c5, intDec_line, or_self, not_false_eq_true]
  · subst h1; simp only [List.mem_append, c6, toIso_line, or_self, not_false_eq_true]
  · cases f with
    | false => simp at h1
    | true =>
      simp only [if_true, List.mem_cons, List.not_mem_nil, or_false] at h1
      rcases h1 with rfl | rfl
      · simp only [List.mem_append, c7, false_or]
        split
        · exact c12
        · exact c13
      · simp only [List.mem_append, c8, toIso_line, or_self, not_false_eq_true]
  · subst h1; simp only [List.mem_append, c9, natDec_line, List.mem_singleton, c15, or_self, not_false_eq_true]
  · have k := (h.key t ht).1
    have v := h.value t ht
    unfold OneLine at k v
    simp only [List.mem_append, c10, k, c11, v, List.mem_singleton, c14, or_self, not_false_eq_true]

theorem debugObj_line {f : Bool} {o : OsmObj} (h : DumpObj o) : ∀ l ∈ debugObj f o, '\n' ∉ l := by
  have c1 : '\n' ∉ txt "node:" := by decide
  have c2 : '\n' ∉ txt "way:" := by decide
  have c3 : '\n' ∉ txt "relation:" := by decide
  have c4 : '\n' ∉ txt "  lon=" := by decide
  have c5 : '\n' ∉ txt "  lat=" := by decide
  have c6 : '\n' ∉ txt "  node_count=" := by decide
  have c7 : '\n' ∉ txt "  nodes:" := by decide
  have c8 : '\n' ∉ txt "    ref=" := by decide
  have c9 : '\n' ∉ txt "  members: (count=" := by decide
  have c10 : '\n' ∉ txt "    type=" := by decide
  have c11 : '\n' ∉ txt " ref=" := by decide
  have c12 : '\n' ∉ txt " role=|" := by decide
  have c14 : ¬ '\n' = '|' := by decide
  have c15 : ¬ '\n' = ')' := by decide
  intro l hl
  cases o with
  | node n =>
    simp only [debugObj, List.mem_append, List.mem_cons, List.not_mem_nil, or_false] at hl
    rcases hl with (rfl | hl) | rfl | rfl
    · exact c1
    · exact debugMeta_line h.1 l hl
    · simp only [List.mem_append, c4, fmt7_line, or_self, not_false_eq_true]
    · simp only [List.mem_append, c5, fmt7_line, or_self, not_false_eq_true]
  | way w =>
    simp only [debugObj, List.mem_append, List.mem_cons, List.not_mem_nil, or_false, List.mem_map] at hl
    rcases hl with ((rfl | hl) | rfl | rfl) | ⟨n, _, rfl⟩
    · exact c2
    · exact debugMeta_line h l hl
    · simp only [List.mem_append, c6, natDec_line, or_self, not_false_eq_true]
    · exact c7
    · simp only [List.mem_append, c8, intDec_line, or_self, not_false_eq_true]
  | relation r =>
    simp only [debugObj, List.mem_append, List.mem_cons, List.not_mem_nil, or_false, List.mem_map] at hl
    rcases hl with ((rfl | hl) | rfl) | ⟨m, hm, rfl⟩
    · exact c3
    · exact debugMeta_line h.1 l hl
    · simp only [List.mem_append, c9, natDec_line, List.mem_singleton, c15, or_self, not_false_eq_true]
    · obtain ⟨hr, ht⟩ := h.2 m hm
      unfold OneLine at hr
      have ht' : ¬ '\n' = m.type := fun e => ht e.symm
      simp only [List.mem_append, c10, c11, c12, List.mem_singleton, ht', intDec_line, hr, c14, or_self,
        not_false_eq_true]

theorem debugLines_line {bt : Bounds → Line} (hbt : ∀ b, '\n' ∉ bt b) (f : Bool) (cs : List Cb)
    (h : ∀ c ∈ cs, DumpCb c) : ∀ l ∈ debugLines bt f cs, '\n' ∉ l := by
  have c1 : '\n' ∉ txt "meta:" := by decide
  have c2 : '\n' ∉ txt "  generator=" := by decide
  have c3 : '\n' ∉ txt "  bounds=" := by decide
  have c4 : '\n' ∉ txt "before_" := by decide
  have c5 : '\n' ∉ txt "after_" := by decide
  have c6 : '\n' ∉ txt "final" := by decide
  have c7 : ∀ t, '\n' ∉ typePlural t := by intro t; cases t <;> decide
  induction cs generalizing f with
  | nil => simp [debugLines]
  | cons c cs ih =>
    intro l hl
    simp only [debugLines, List.mem_append] at hl
    rcases hl with hl | hl
    · have hc := h c (by simp)
      cases c with
      | init m =>
        simp only [debugStep, List.mem_append, List.mem_cons, List.not_mem_nil, or_false] at hl
        rcases hl with (rfl | rfl) | hl
        · exact c1
        · have : '\n' ∉ m.generator.toList := hc
          simp only [List.mem_append, c2, this, or_self, not_false_eq_true]
        · cases hb : m.bounds.defined with
          | false => rw [hb] at hl; simp at hl
          | true =>
            rw [hb] at hl
            simp only [if_true, List.mem_cons, List.not_mem_nil, or_false] at hl
            subst hl
            simp only [List.mem_append, c3, hbt, or_self, not_false_eq_true]
      | before t =>
        simp only [debugStep, List.mem_cons, List.not_mem_nil, or_false] at hl
        subst hl
        simp only [List.mem_append, c4, c7, or_self, not_false_eq_true]
      | obj o => exact debugObj_line hc l hl
      | after t =>
        simp only [debugStep, List.mem_cons, List.not_mem_nil, or_false] at hl
        subst hl
        simp only [List.mem_append, c5, c7, or_self, not_false_eq_true]
      | final =>
        simp only [debugStep, List.mem_cons, List.not_mem_nil, or_false] at hl
        subst hl
        exact c6
    · exact ih _ (fun c hc => h c (by simp [hc])) l hl

/-- **C70**: If two sequences of callbacks lead to the same text, they are the same callbacks with the same
objects: all attributes, all tags in order, positions of nodes, node references, members.  For all
sequences in which texts have no newlines and keys no bars, and times are in the years 0 to 9999 or unset. -/
theorem debug_dump_complete_partial (bt : Bounds → Line) (hbt : ∀ b, '\n' ∉ bt b) (f f' : Bool) (cs cs' : List Cb)
    (hc : ∀ c ∈ cs, DumpCb c) (hc' : ∀ c ∈ cs', DumpCb c) (h : debugText bt f cs = debugText bt f' cs') :
    shows f cs = shows f' cs' :=
  debugLines_inj bt f f' cs cs' hc hc'
    (lines_injective (debugLines_line hbt f cs hc) (debugLines_line hbt f' cs' hc') h)

/-- What is missing: nothing is escaped.  Two different tags with the same text ... -/
theorem debug_dump_ambiguous_bar (bt : Bounds → Line) :
    let a : Obj := { Obj.new with tags := [⟨"k| v=|x", "y"⟩] }
    let b : Obj := { Obj.new with tags := [⟨"k", "x| v=|y"⟩] }
    a ≠ b ∧ debugText bt false [.obj (.way ⟨a, []⟩)] = debugText bt false [.obj (.way ⟨b, []⟩)] := by
  refine ⟨by decide, ?_⟩
  have hb : ∀ w, debugText bt false [.obj (.way w)] = debugText (fun _ => []) false [.obj (.way w)] := fun _ => rfl
  rw [hb, hb]
  decide +kernel

/-- ... and a value with a newline that looks like a whole object. -/
theorem debug_dump_ambiguous_newline (bt : Bounds → Line) :
    let a : Obj := { Obj.new with tags := [⟨"k", "a|\n    k=|k| v=|b"⟩, ⟨"x", "y"⟩] }
    let b : Obj := { Obj.new with tags := [⟨"k", "a"⟩, ⟨"k", "b|\n    k=|x| v=|y"⟩] }
    a ≠ b ∧ debugText bt false [.obj (.way ⟨a, []⟩)] = debugText bt false [.obj (.way ⟨b, []⟩)] := by
  refine ⟨by decide, ?_⟩
  have hb : ∀ w, debugText bt false [.obj (.way w)] = debugText (fun _ => []) false [.obj (.way w)] := fun _ => rfl
  rw [hb, hb]
  decide +kernel

/-- A concrete case for the theorem. -/
example :
    let o : OsmObj := .node ⟨{ Obj.new with id := 17, user := "a|b", timestamp := 1300000000
                                            tags := [⟨"name", "x|y"⟩] }, ⟨81234567, -5⟩⟩
    let cs : List Cb := [.init ⟨Bounds.empty, "me", true⟩, .before .node, .obj o, .after .node, .final]
    (∀ c ∈ cs, DumpCb c) ∧ String.ofList (debugText (fun _ => []) false cs) =
      "meta:\n  generator=me\nbefore_nodes\nnode:\n  id=17\n  version=0\n  uid=-1\n  user=|a|b|\n  changeset=0\n  timestamp=2011-03-13T07:06:40Z\n  visible=yes\n  endtime=\n  tags: (count=1)\n    k=|name| v=|x|y|\n  lon=8.1234567\n  lat=-0.0000005\nafter_nodes\nfinal\n" := by
  refine ⟨?_, by decide +kernel⟩
  intro c hc
  simp only [List.mem_cons, List.not_mem_nil, or_false] at hc
  rcases hc with rfl | rfl | rfl | rfl | rfl
  · show '\n' ∉ "me".toList
    decide
  · exact Or.inl rfl
  · refine ⟨⟨?_, ?_, ?_, Or.inr ?_, Or.inl rfl⟩, ?_, ?_⟩
    · show '\n' ∉ "a|b".toList
      decide
    · intro t ht
      simp only [List.mem_cons, List.not_mem_nil, or_false] at ht
      subst ht
      exact ⟨show '\n' ∉ "name".toList by decide, by decide⟩
    · intro t ht
      simp only [List.mem_cons, List.not_mem_nil, or_false] at ht
      subst ht
      show '\n' ∉ "x|y".toList
      decide
    · unfold InIsoRange; decide
    · decide
    · decide
  · exact Or.inl rfl
  · trivial

end Osmium
