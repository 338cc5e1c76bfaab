import Verif.Xml.WriterLemmas
import Verif.Xml.NumberLemmas
import Verif.Attr.Props
/-
What the XML reader makes of the events of a written object.
-/
namespace Osmium

/-- The object of a type. -/
def Regs.get (r : Regs) : ObjType → OsmObj
  | .way => .way r.way
  | .relation => .relation r.rel
  | _ => .node r.node

/-- Change the common attributes of an object. -/
def OsmObj.mapObj (f : Obj → Obj) : OsmObj → OsmObj
  | .node n => .node { n with obj := f n.obj }
  | .way w => .way { w with obj := f w.obj }
  | .relation r => .relation { r with obj := f r.obj }

/-- Node, way or relation. -/
def ObjType.IsObj (t : ObjType) : Prop := t = .node ∨ t = .way ∨ t = .relation

/-- The operations change the object of type `t` like `g`, and make no callbacks. -/
def OpsTo (t : ObjType) (ops : List ROp) (g : OsmObj → OsmObj) : Prop :=
  ∀ r : Regs, (r.run ops).1.get t = g (r.get t) ∧ (r.run ops).2 = []

theorem OpsTo.nil (t : ObjType) : OpsTo t [] id := fun r => by simp [Regs.run]

theorem OpsTo.append {t : ObjType} {a b : List ROp} {g h : OsmObj → OsmObj} (ha : OpsTo t a g)
    (hb : OpsTo t b h) : OpsTo t (a ++ b) (h ∘ g) := by
  intro r
  rw [Regs.run_append]
  simp [(ha r).1, (ha r).2, (hb _).1, (hb _).2]

theorem OpsTo.modObj {t : ObjType} (ht : t.IsObj) (f : Obj → Obj) :
    OpsTo t (ROp.modObj t f) (OsmObj.mapObj f) := by
  intro r
  rcases ht with rfl | rfl | rfl <;> simp [ROp.modObj, Regs.run, Regs.step, Regs.get, OsmObj.mapObj]

/-- The attributes change the object of type `t` like `g`. -/
def AttrsTo (t : ObjType) (hasNode : Bool) (as : XAttrs) (g : OsmObj → OsmObj) : Prop :=
  ∃ ops, initAttrs t hasNode as = (ops, none) ∧ OpsTo t ops g

theorem AttrsTo.nil (t : ObjType) (hn : Bool) : AttrsTo t hn [] id := ⟨[], rfl, OpsTo.nil t⟩

theorem initAttrs_append (t : ObjType) (hn : Bool) (a b : XAttrs) (ops : List ROp)
    (h : initAttrs t hn a = (ops, none)) :
    initAttrs t hn (a ++ b) = (ops ++ (initAttrs t hn b).1, (initAttrs t hn b).2) := by
  induction a generalizing ops with
  | nil => simp [initAttrs] at h; subst h; simp
  | cons kv a ih =>
    obtain ⟨k, v⟩ := kv
    simp only [List.cons_append, initAttrs] at h ⊢
    rcases hr : initAttrs t hn a with ⟨o1, e1⟩
    rw [hr] at h ih
    cases e1 with
    | some f =>
      exfalso
      revert h
      split
      · split
        · split <;> simp
        · simp
      · split
        · split
          · split <;> simp
          · simp
        · split <;> simp
    | none =>
      rw [ih o1 rfl]
      revert h
      split
      · split
        · split <;> simp
          intro h; subst h; simp
        · simp
      · split
        · split
          · split <;> simp
            intro h; subst h; simp
          · simp
        · split <;> simp
          intro h; subst h; simp

theorem AttrsTo.append {t : ObjType} {hn : Bool} {a b : XAttrs} {g h : OsmObj → OsmObj}
    (ha : AttrsTo t hn a g) (hb : AttrsTo t hn b h) : AttrsTo t hn (a ++ b) (h ∘ g) := by
  obtain ⟨oa, ea, ga⟩ := ha
  obtain ⟨ob, eb, gb⟩ := hb
  refine ⟨oa ++ ob, ?_, ga.append gb⟩
  rw [initAttrs_append t hn a b oa ea, eb]

theorem AttrsTo.attr {t : ObjType} (ht : t.IsObj) (hn : Bool) (k v : String) (f : Obj → Obj)
    (h1 : k ≠ "lon") (h2 : k ≠ "lat") (h : ∀ o : Obj, o.setAttribute k v = (f o, none)) :
    AttrsTo t hn [(k, v)] (OsmObj.mapObj f) := by
  refine ⟨ROp.modObj t f, ?_, OpsTo.modObj ht f⟩
  simp only [initAttrs, h1, h2, if_false, h, List.append_nil]

theorem AttrsTo.ite {t : ObjType} {hn : Bool} {c : Prop} [Decidable c] {as : XAttrs}
    {g : OsmObj → OsmObj} (h : c → AttrsTo t hn as g) :
    AttrsTo t hn (if c then as else []) (if c then g else id) := by
  split
  · rename_i hc; exact h hc
  · exact AttrsTo.nil t hn

theorem mapObj_ite (c : Prop) [Decidable c] (f : Obj → Obj) (o : OsmObj) :
    (if c then OsmObj.mapObj f else id) o = OsmObj.mapObj (if c then f else id) o := by
  split
  · rfl
  · cases o <;> rfl

theorem mapObj_mapObj (f g : Obj → Obj) (o : OsmObj) :
    OsmObj.mapObj f (OsmObj.mapObj g o) = OsmObj.mapObj (f ∘ g) o := by
  cases o <;> rfl

/-- What the attributes written by `write_meta` do to a new object. -/
def keepAttrs (ft : FileType) (o : Obj) (p : Obj) : Obj :=
  { p with
    id := o.id
    version := if o.version ≠ 0 then o.version else p.version
    timestamp := if o.timestamp ≠ 0 then o.timestamp else p.timestamp
    uid := if o.uid > 0 then o.uid else p.uid
    user := if o.uid > 0 then o.user else p.user
    changeset := if o.changeset ≠ 0 then o.changeset else p.changeset
    visible := if ft.multi ∧ ft ≠ .change then o.visible else p.visible }

theorem version_text (n : Int) (h : InU32 n) (o : Obj) :
    o.setAttribute "version" (str (Text.intDec (wrapS32 n))) = ({ o with version := n }, none) := by
  have h1 := wrapS32_in n
  have h2 : InS64 (wrapS32 n) := by unfold InS32 at h1; unfold InS64; omega
  have h3 : wrapU32 (wrapS32 n) = n := by unfold InU32 at h; unfold wrapU32 wrapS32; omega
  simp [Obj.setAttribute, strToVersion, str, Text.atoll_intDec _ h2, h3]

theorem metaAttrs_to {t : ObjType} (ht : t.IsObj) (hn : Bool) (ft : FileType) (o : Obj)
    (h : Spec.XmlAttrsOk o) :
    AttrsTo t hn (metaAttrs ft o) (OsmObj.mapObj (keepAttrs ft o)) := by
  obtain ⟨⟨w1, w2, w3, w4, w5⟩, htime, huser⟩ := h
  have a1 : AttrsTo t hn [("id", str (Text.intDec o.id))] (OsmObj.mapObj fun p => { p with id := o.id }) :=
    AttrsTo.attr ht hn _ _ _ (by decide) (by decide) fun p => (set_attribute_numbers p o.id).1 w1
  have a2 : AttrsTo t hn [("version", str (Text.intDec (wrapS32 o.version)))]
      (OsmObj.mapObj fun p => { p with version := o.version }) :=
    AttrsTo.attr ht hn _ _ _ (by decide) (by decide) fun p => version_text o.version w2 p
  have a3 : o.timestamp ≠ 0 → AttrsTo t hn [("timestamp", str (Time.toIso o.timestamp))]
      (OsmObj.mapObj fun p => { p with timestamp := o.timestamp }) := fun h0 =>
    AttrsTo.attr ht hn _ _ _ (by decide) (by decide) fun p =>
      set_attribute_timestamp p o.timestamp h0 (htime.resolve_left h0)
  have a4 : AttrsTo t hn [("uid", str (Text.intDec o.uid)), ("user", o.user)]
      ((OsmObj.mapObj fun p => { p with user := o.user }) ∘
       (OsmObj.mapObj fun p => { p with uid := o.uid })) :=
    AttrsTo.append (a := [("uid", str (Text.intDec o.uid))]) (b := [("user", o.user)])
      (AttrsTo.attr ht hn _ _ _ (by decide) (by decide) fun p => (set_attribute_numbers p o.uid).2.2.2 w5)
      (AttrsTo.attr ht hn _ _ _ (by decide) (by decide) fun p => (set_attribute_text p o.user).1 huser)
  have a5 : AttrsTo t hn [("changeset", str (Text.intDec o.changeset))]
      (OsmObj.mapObj fun p => { p with changeset := o.changeset }) :=
    AttrsTo.attr ht hn _ _ _ (by decide) (by decide) fun p => (set_attribute_numbers p o.changeset).2.2.1 w3
  have a6 : AttrsTo t hn [("visible", if o.visible then "true" else "false")]
      (OsmObj.mapObj fun p => { p with visible := o.visible }) :=
    AttrsTo.attr ht hn _ _ _ (by decide) (by decide) fun p => by
      rw [(set_attribute_text p _).2]
      cases o.visible <;> simp
  have all := ((((a1.append (AttrsTo.ite (c := o.version ≠ 0) fun _ => a2)).append
    (AttrsTo.ite (c := o.timestamp ≠ 0) a3)).append
    (AttrsTo.ite (c := o.uid > 0) fun _ => a4)).append
    (AttrsTo.ite (c := o.changeset ≠ 0) fun _ => a5)).append
    (AttrsTo.ite (c := ft.multi ∧ ft ≠ .change) fun _ => a6)
  obtain ⟨ops, e1, e2⟩ := all
  refine ⟨ops, e1, ?_⟩
  intro r
  refine ⟨?_, (e2 r).2⟩
  rw [(e2 r).1]
  generalize r.get t = x
  simp only [Function.comp_apply]
  unfold keepAttrs
  split_ifs <;> cases x <;> rfl

theorem textToFix_fix (x : Int) (h : InS32 x) :
    textToFix (str (Text.fmt7 (fixToDouble x))) = some x := by
  simp only [textToFix, str, String.toList_ofList]
  exact fix_text_fix x h

theorem posAttrs_to (p : Position) (h : p.WF) :
    AttrsTo .node true (posAttrs p) (fun o => match o with
      | .node n => .node { n with position := if p.defined then p else n.position }
      | o => o) := by
  unfold posAttrs
  split
  · refine ⟨[.modNode fun n => { n with position := { n.position with y := p.y } },
      .modNode fun n => { n with position := { n.position with x := p.x } }], ?_, ?_⟩
    · simp [initAttrs, textToFix_fix _ h.1, textToFix_fix _ h.2]
    · intro r
      simp [Regs.run, Regs.step, Regs.get]
  · refine ⟨[], rfl, fun r => by simp [Regs.run, Regs.get]⟩

/-- What the attributes of an object do to a new object. -/
theorem objAttrs_to (ft : FileType) (o : OsmObj) (h : Spec.XmlOk o) (hn : Bool)
    (hh : o.type = .node → hn = true) :
    ∃ g, AttrsTo o.type hn (objAttrs ft o) g ∧ ∀ (r : Regs) (vis : Bool),
      g (((r.step (.prepare o.type)).1.get o.type).mapObj fun p => { p with visible := vis }) =
        match o with
        | .node n => .node ⟨keepAttrs ft n.obj { Obj.new with visible := vis },
            if n.position.defined then n.position else Position.undef⟩
        | .way w => .way ⟨keepAttrs ft w.obj { Obj.new with visible := vis }, []⟩
        | .relation x => .relation ⟨keepAttrs ft x.obj { Obj.new with visible := vis }, []⟩ := by
  cases o with
  | node n =>
    have : hn = true := hh rfl
    subst this
    refine ⟨_, (metaAttrs_to (Or.inl rfl) true ft n.obj h.1).append (posAttrs_to n.position h.2), ?_⟩
    intro r vis; rfl
  | way w =>
    refine ⟨_, metaAttrs_to (Or.inr (Or.inl rfl)) hn ft w.obj h.1, ?_⟩
    intro r vis; rfl
  | relation x =>
    refine ⟨_, metaAttrs_to (Or.inr (Or.inr rfl)) hn ft x.obj h.1, ?_⟩
    intro r vis; rfl

/-! ### Sequences of events -/

theorem xmlRun_append (s : XCtl) (a b : List XEv) :
    xmlRun s (a ++ b) =
      match (xmlRun s a).2 with
      | .error f => ((xmlRun s a).1, .error f)
      | .ok s1 => ((xmlRun s a).1 ++ (xmlRun s1 b).1, (xmlRun s1 b).2) := by
  induction a generalizing s with
  | nil => simp [xmlRun]
  | cons e a ih =>
    simp only [List.cons_append, xmlRun]
    rcases h : xmlStep s e with ⟨ops, r⟩
    cases r with
    | error f => rfl
    | ok s1 =>
      simp only [ih]
      rcases h2 : xmlRun s1 a with ⟨ops2, r2⟩
      cases r2 with
      | error f => rfl
      | ok s2 => simp [List.append_assoc]

theorem xmlRun_cons (s : XCtl) (e : XEv) (b : List XEv) :
    xmlRun s (e :: b) =
      match (xmlStep s e).2 with
      | .error f => ((xmlStep s e).1, .error f)
      | .ok s1 => ((xmlStep s e).1 ++ (xmlRun s1 b).1, (xmlRun s1 b).2) := by
  simp only [xmlRun]
  rcases h : xmlStep s e with ⟨ops, r⟩
  cases r <;> rfl

/-- Two states that differ in `m_last_context` only. -/
def XCtl.Same (s s' : XCtl) : Prop := s' = { s with lastCtx := s'.lastCtx }

/-- In the state `s` (inside of an object of type `t`), the events change the object like `g`. -/
def Inner (t : ObjType) (s : XCtl) (evs : List XEv) (g : OsmObj → OsmObj) : Prop :=
  ∃ ops s', xmlRun s evs = (ops, .ok s') ∧ s.Same s' ∧ OpsTo t ops g

theorem Inner.nil (t : ObjType) (s : XCtl) : Inner t s [] id := ⟨[], s, rfl, rfl, OpsTo.nil t⟩

theorem Inner.append {t : ObjType} {s : XCtl} {a b : List XEv} {g h : OsmObj → OsmObj}
    (ha : Inner t s a g) (hb : ∀ s', s.Same s' → Inner t s' b h) : Inner t s (a ++ b) (h ∘ g) := by
  obtain ⟨oa, s1, ea, ca, ga⟩ := ha
  obtain ⟨ob, s2, eb, cb, gb⟩ := hb s1 ca
  refine ⟨oa ++ ob, s2, ?_, ?_, ga.append gb⟩
  · rw [xmlRun_append, ea]; simp only [eb]
  · unfold XCtl.Same at *; rw [cb, ca]

theorem Inner.flatMap {α : Type} {t : ObjType} {s : XCtl} (l : List α) (f : α → List XEv)
    (g : α → OsmObj → OsmObj) (h : ∀ x ∈ l, ∀ s', s.Same s' → Inner t s' (f x) (g x)) :
    Inner t s (l.flatMap f) (fun o => l.foldl (fun o x => g x o) o) := by
  induction l generalizing s with
  | nil => exact Inner.nil t s
  | cons x l ih =>
    rw [List.flatMap_cons]
    refine Inner.append (h := fun o => l.foldl (fun o x => g x o) o) (h x (by simp) s rfl) ?_
    intro s' hs
    refine ih ?_
    intro y hy s'' hs'
    refine h y (by simp [hy]) s'' ?_
    unfold XCtl.Same at *; rw [hs', hs]

/-- The context inside of an object. -/
def ctxOf : ObjType → XCtx
  | .way => .way
  | .relation => .relation
  | _ => .node

theorem inner_tag {t : ObjType} (ht : t.IsObj) {s : XCtl} (hc : s.ctx = ctxOf t) (hcur : s.cur = some t)
    (x : Tag) : Inner t s (tagEvs x) (OsmObj.mapObj fun o => { o with tags := o.tags ++ [x] }) := by
  refine ⟨ROp.modObj t fun o => { o with tags := o.tags ++ [x] },
    { s with lastCtx := ctxOf t }, ?_, by simp [XCtl.Same], OpsTo.modObj ht _⟩
  have ck : checkTag s.cur "tag" [("k", x.key), ("v", x.value)] =
      some (ROp.modObj t fun o => { o with tags := o.tags ++ [x] }) := by
    simp [checkTag, hcur, lastAttr, TagList.add]
  rcases ht with rfl | rfl | rfl <;>
    simp only [ctxOf] at hc <;>
    simp [tagEvs, xmlRun, xmlStep, startElement, hc, ck, xinner, endElement, ctxOf]

theorem inner_nd {s : XCtl} (hc : s.ctx = .way) (n : WayNode) (h : InS64 n.ref) :
    Inner .way s (ndEvs n) (fun o => match o with
      | .way w => .way { w with nodes := w.nodes ++ [{ ref := n.ref, position := Position.undef }] }
      | o => o) := by
  refine ⟨[.modWay fun w => { w with nodes := w.nodes ++ [{ ref := n.ref, position := Position.undef }] }],
    { s with lastCtx := .way }, ?_, by simp [XCtl.Same], ?_⟩
  · simp [ndEvs, xmlRun, xmlStep, startElement, hc, xinner, endElement, strToId, str,
      Text.atoll_intDec _ h]
  · intro r; simp [Regs.run, Regs.step, Regs.get]

theorem addMember_ok (l : List Member) (m : Member) (h : m.role.utf8ByteSize ≤ 1021) :
    addMember l m.type m.ref m.role = (l ++ [m], false) := by
  have : ¬ m.role.utf8ByteSize > maxLength := by unfold maxLength; omega
  simp [addMember, Member.setRole, this]

theorem inner_member {s : XCtl} (hc : s.ctx = .relation) (hcur : s.cur = some .relation)
    (hr : s.hasRel = true) (m : Member) (h : InS64 m.ref)
    (ht : m.type = 'n' ∨ m.type = 'w' ∨ m.type = 'r') (hl : m.role.utf8ByteSize ≤ 1021) :
    Inner .relation s (memberEvs m) (fun o => match o with
      | .relation r => .relation { r with members := r.members ++ [m] }
      | o => o) := by
  have hty : m.typeName.toList.head?.getD (Char.ofNat 0) = m.type := by
    rcases ht with h | h | h <;> simp [Member.typeName, h]
  have hw : wrapS64 (wrapU64 m.ref) = m.ref := by
    unfold InS64 at h; unfold wrapS64 wrapU64; omega
  refine ⟨[.modRel fun r => { r with members := r.members ++ [m] }],
    { s with lastCtx := .relation }, ?_, by simp [XCtl.Same], ?_⟩
  · have hm : memberOp s [("type", m.typeName), ("ref", str (Text.intDec m.ref)), ("role", m.role)] =
        ([.modRel fun r => { r with members := r.members ++ [m] }], none) := by
      simp [memberOp, lastAttr, hcur, hr, hty, strToId, str, Text.atoll_intDec _ h, hw, addMember_ok _ _ hl]
    simp [memberEvs, xmlRun, xmlStep, startElement, hc, xinner, endElement, hm]
  · intro r; simp [Regs.run, Regs.step, Regs.get]

theorem foldl_mapTags (ts : TagList) (o : OsmObj) :
    ts.foldl (fun o x => OsmObj.mapObj (fun p => { p with tags := p.tags ++ [x] }) o) o =
      o.mapObj fun p => { p with tags := p.tags ++ ts } := by
  induction ts generalizing o with
  | nil => cases o <;> simp [OsmObj.mapObj]
  | cons t ts ih => rw [List.foldl_cons, ih]; cases o <;> simp [OsmObj.mapObj]

/-- The children of an object. -/
theorem inner_kids (o : OsmObj) (h : Spec.XmlOk o) (s : XCtl) (hc : s.ctx = ctxOf o.type)
    (hcur : s.cur = some o.type) (hr : o.type = .relation → s.hasRel = true) :
    ∃ g, Inner o.type s (kidEvs o) g ∧ ∀ a p, g (match o with
        | .node _ => OsmObj.node ⟨a, p⟩
        | .way _ => .way ⟨a, []⟩
        | .relation _ => .relation ⟨a, []⟩) =
      match o with
      | .node n => .node ⟨{ a with tags := a.tags ++ n.obj.tags }, p⟩
      | .way w => .way ⟨{ a with tags := a.tags ++ w.obj.tags },
          w.nodes.map (fun n => { ref := n.ref, position := Position.undef })⟩
      | .relation x => .relation ⟨{ a with tags := a.tags ++ x.obj.tags }, x.members⟩ := by
  have same_ctx : ∀ s', s.Same s' → s'.ctx = s.ctx ∧ s'.cur = s.cur ∧ s'.hasRel = s.hasRel := by
    intro s' hs; unfold XCtl.Same at hs; rw [hs]; exact ⟨rfl, rfl, rfl⟩
  cases o with
  | node n =>
    refine ⟨_, Inner.flatMap n.obj.tags tagEvs _ fun x _ s' hs =>
      inner_tag (Or.inl rfl) ((same_ctx s' hs).1.trans hc) ((same_ctx s' hs).2.1.trans hcur) x, ?_⟩
    intro a p
    rw [foldl_mapTags]; rfl
  | way w =>
    have h1 : Inner .way s (w.nodes.flatMap ndEvs) _ := Inner.flatMap w.nodes ndEvs _ fun x hx s' hs =>
      inner_nd ((same_ctx s' hs).1.trans hc) x (h.2 x hx)
    refine ⟨_, Inner.append h1 fun s' hs => Inner.flatMap w.obj.tags tagEvs _ fun x _ s'' hs' =>
      inner_tag (Or.inr (Or.inl rfl)) ?_ ?_ x, ?_⟩
    · have h2 : s''.ctx = s'.ctx := by unfold XCtl.Same at hs'; rw [hs']
      rw [h2, (same_ctx s' hs).1, hc]; rfl
    · have h2 : s''.cur = s'.cur := by unfold XCtl.Same at hs'; rw [hs']
      rw [h2, (same_ctx s' hs).2.1, hcur]; rfl
    intro a p
    simp only [Function.comp_apply]
    rw [foldl_mapTags]
    have : ∀ (l : List WayNode) (acc : List WayNode),
        l.foldl (fun o (x : WayNode) => match o with
          | OsmObj.way w => .way { w with nodes := w.nodes ++ [{ ref := x.ref, position := Position.undef }] }
          | o => o) (OsmObj.way ⟨a, acc⟩) =
        OsmObj.way ⟨a, acc ++ l.map fun n => { ref := n.ref, position := Position.undef }⟩ := by
      intro l
      induction l with
      | nil => intro acc; simp
      | cons x l ih => intro acc; rw [List.foldl_cons]; simp only [ih]; simp
    rw [this]; rfl
  | relation x =>
    have h1 : Inner .relation s (x.members.flatMap memberEvs) _ :=
      Inner.flatMap x.members memberEvs _ fun m hm s' hs =>
        inner_member ((same_ctx s' hs).1.trans hc) ((same_ctx s' hs).2.1.trans hcur)
          ((same_ctx s' hs).2.2.trans (hr rfl)) m (h.2 m hm).1 (h.2 m hm).2.1 (h.2 m hm).2.2
    refine ⟨_, Inner.append h1 fun s' hs => Inner.flatMap x.obj.tags tagEvs _ fun y _ s'' hs' =>
      inner_tag (Or.inr (Or.inr rfl)) ?_ ?_ y, ?_⟩
    · have h2 : s''.ctx = s'.ctx := by unfold XCtl.Same at hs'; rw [hs']
      rw [h2, (same_ctx s' hs).1, hc]; rfl
    · have h2 : s''.cur = s'.cur := by unfold XCtl.Same at hs'; rw [hs']
      rw [h2, (same_ctx s' hs).2.1, hcur]; rfl
    intro a p
    simp only [Function.comp_apply]
    rw [foldl_mapTags]
    have : ∀ (l : List Member) (acc : List Member),
        l.foldl (fun o (m : Member) => match o with
          | OsmObj.relation r => .relation { r with members := r.members ++ [m] }
          | o => o) (OsmObj.relation ⟨a, acc⟩) = OsmObj.relation ⟨a, acc ++ l⟩ := by
      intro l
      induction l with
      | nil => intro acc; simp
      | cons m l ih => intro acc; rw [List.foldl_cons]; simp only [ih]; simp
    rw [this]; rfl

end Osmium
