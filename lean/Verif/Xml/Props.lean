import Verif.Xml.ReaderLemmas
import Verif.Input.Observer
/-
C24, C25, C26: XML output is well nested, and objects survive writing and reading XML.
-/
namespace Osmium
open Spec

/-! ### C24: well nested output -/

theorem nest_append (st st' : List String) (a b : List XEv) (h : nest st a = some st') :
    nest st (a ++ b) = nest st' b := by
  induction a generalizing st with
  | nil => simp [nest] at h; subst h; rfl
  | cons e a ih =>
    cases st with
    | nil => simp [nest] at h
    | cons s st =>
      cases e with
      | start n as => simp only [List.cons_append, nest] at h ⊢; exact ih _ h
      | stop n =>
        simp only [List.cons_append, nest] at h ⊢
        split at h
        · rename_i hn; simp only [hn, if_true]; exact ih _ h
        · simp at h

theorem enclosing_append (st st' : List String) (a b : List XEv) (h : nest st a = some st') :
    enclosing st (a ++ b) = enclosing st a ++ enclosing st' b := by
  induction a generalizing st with
  | nil => simp [nest] at h; subst h; rfl
  | cons e a ih =>
    cases st with
    | nil => simp [nest] at h
    | cons s st =>
      cases e with
      | start n as => simp only [List.cons_append, nest, enclosing] at h ⊢; rw [ih _ h]
      | stop n =>
        simp only [nest] at h
        split at h
        · simp only [List.cons_append, enclosing, List.tail_cons]; exact ih _ h
        · simp at h

/-- The events `X`, with `st` open, leave `st'` open and contain the objects `L`. -/
def Shape (st : List String) (X : List XEv) (st' : List String) (L : List (String × List String)) :
    Prop :=
  nest st X = some st' ∧ (enclosing st X).filter isObjectElement = L

theorem Shape.nil (st : List String) : Shape st [] st [] := by
  refine ⟨?_, rfl⟩; cases st <;> rfl

theorem Shape.append {st st1 st2 : List String} {X Y : List XEv} {L M : List (String × List String)}
    (h1 : Shape st X st1 L) (h2 : Shape st1 Y st2 M) : Shape st (X ++ Y) st2 (L ++ M) := by
  refine ⟨by rw [nest_append _ _ _ _ h1.1]; exact h2.1, ?_⟩
  rw [enclosing_append _ _ _ _ h1.1, List.filter_append, h1.2, h2.2]

theorem Shape.flatMap {α : Type} (st : List String) (l : List α) (f : α → List XEv)
    (h : ∀ x ∈ l, Shape st (f x) st []) : Shape st (l.flatMap f) st [] := by
  induction l with
  | nil => exact Shape.nil st
  | cons x l ih =>
    rw [List.flatMap_cons]
    exact (h x (by simp)).append (ih fun y hy => h y (by simp [hy]))

theorem Shape.leaf (s : String) (st : List String) (n : String) (as : XAttrs)
    (h : isObjectElement (n, s :: st) = false) :
    Shape (s :: st) [.start n as, .stop n] (s :: st) [] := by
  simp [Shape, nest, enclosing, h]

theorem shape_obj (ft : FileType) (s : String) (st : List String) (o : OsmObj) :
    Shape (s :: st) (objEvs ft o) (s :: st) [(elementName o, s :: st)] := by
  have h1 : Shape (s :: st) [.start (elementName o) (objAttrs ft o)] (elementName o :: s :: st)
      [(elementName o, s :: st)] := by
    refine ⟨rfl, ?_⟩
    cases o <;> rfl
  have h2 : Shape (elementName o :: s :: st) (kidEvs o) (elementName o :: s :: st) [] := by
    have tags : ∀ ts : TagList, Shape (elementName o :: s :: st) (ts.flatMap tagEvs)
        (elementName o :: s :: st) [] := fun ts =>
      Shape.flatMap _ _ _ fun t _ => Shape.leaf _ _ "tag" _ rfl
    cases o with
    | node n => exact tags _
    | way w => exact Shape.append (Shape.flatMap _ _ _ fun x _ => Shape.leaf _ _ "nd" _ rfl) (tags _)
    | relation r =>
      exact Shape.append (Shape.flatMap _ _ _ fun x _ => Shape.leaf _ _ "member" _ rfl) (tags _)
  have h3 : Shape (elementName o :: s :: st) [.stop (elementName o)] (s :: st) [] := by
    simp [Shape, nest, enclosing]
  exact (h1.append h2).append h3

theorem shape_sec (ft : FileType) (last op : Option Char) :
    Shape (openEls ft last) (secEvs last op) (openEls ft op) [] := by
  unfold secEvs
  split
  · rename_i h; subst h; exact Shape.nil _
  · refine Shape.append (st1 := [rootName ft]) (L := []) (M := []) ?_ ?_
    · cases last with
      | none => exact Shape.nil _
      | some c => simp [Shape, openEls, nest, enclosing]
    · cases op with
      | none => exact Shape.nil _
      | some c =>
        have : isObjectElement (secName c, [rootName ft]) = false := by
          unfold secName; split <;> [skip; split] <;> rfl
        simp [Shape, openEls, nest, enclosing, this]

theorem shape_objs (ft : FileType) (last : Option Char) (os : List OsmObj) :
    Shape (openEls ft last) (objsEvs ft last os) (openEls ft (opAfter ft last os))
      (os.map fun o => (elementName o, openEls ft (opFor ft o))) := by
  induction os generalizing last with
  | nil => exact Shape.nil _
  | cons o os ih =>
    rw [opAfter_cons]
    have h2 : Shape (openEls ft (opFor ft o)) (objEvs ft o) (openEls ft (opFor ft o))
        [(elementName o, openEls ft (opFor ft o))] := by
      cases h : opFor ft o with
      | none => exact shape_obj ft _ _ o
      | some c => exact shape_obj ft _ _ o
    exact ((shape_sec ft last (opFor ft o)).append h2).append (ih _)

theorem secName_opOf (o : Obj) : secName (opOf o) = section' o := by
  unfold opOf section'; split <;> [split; skip] <;> rfl

/-- **C24**: whatever objects are written, none of the libxml2 calls fails, and the result is one
well nested document.  All elements of objects are where they belong: in the root element, in change
files inside exactly one of the sections, the one for the kind of change. -/
theorem xml_well_nested (ft : FileType) (gen : String) (m : Meta) (os : List OsmObj) :
    ∃ evs, xmlWrite ft gen m os = some evs ∧ IsDocument evs ∧
      (enclosing [] evs).filter isObjectElement = os.map fun o =>
        (elementName o, if ft = .change then [section' o.obj, "osmChange"] else ["osm"]) := by
  refine ⟨_, xmlWrite_eq ft gen m os, ?_⟩
  have hb : Shape [rootName ft] (boundsEvs m.bounds) [rootName ft] [] := by
    unfold boundsEvs; split
    · exact Shape.leaf _ _ "bounds" _ rfl
    · exact Shape.nil _
  have h := ((hb.append (shape_objs ft none os)).append (shape_sec ft (opAfter ft none os) none)).append
    (show Shape (openEls ft none) [.stop (rootName ft)] [] [] by simp [Shape, openEls, nest, enclosing])
  have hr : isObjectElement (rootName ft, []) = false := by
    unfold rootName; split <;> rfl
  have e : docEvs ft gen m os = .start (rootName ft) [("version", "0.6"), ("generator", gen)] ::
      (boundsEvs m.bounds ++ objsEvs ft none os ++ secEvs (opAfter ft none os) none ++
        [.stop (rootName ft)]) := by
    simp [docEvs]
  rw [e]
  refine ⟨h.1, ?_⟩
  simp only [enclosing, List.filter_cons, hr]
  rw [if_neg (by simp), h.2]
  simp only [List.nil_append, List.append_nil]
  apply List.map_congr_left
  intro o _
  unfold opFor
  split
  · rename_i hft; simp [openEls, secName_opOf, rootName, hft]
  · rename_i hft; simp [openEls, rootName, hft]

/-! ### C25, C26: reading what has been written -/

/-- The state of the reader between two objects. -/
structure Between (s : XCtl) (d : Bool) (m : Meta) (last : ObjType) : Prop where
  ctx : s.ctx = .top
  del : s.inDelete = d
  info : s.info = m
  last : s.last = last

/-- From every state between objects, the events lead to a state between objects, with these
callbacks. -/
def Reads (d : Bool) (m : Meta) (last : ObjType) (evs : List XEv) (d' : Bool) (m' : Meta)
    (last' : ObjType) (calls : List Cb) : Prop :=
  ∀ s, Between s d m last → ∃ ops s', xmlRun s evs = (ops, .ok s') ∧ Between s' d' m' last' ∧
    ∀ r : Regs, (r.run ops).2 = calls

theorem Reads.append {d d1 d2 : Bool} {m m1 m2 : Meta} {l l1 l2 : ObjType} {a b : List XEv}
    {ca cb : List Cb} (ha : Reads d m l a d1 m1 l1 ca) (hb : Reads d1 m1 l1 b d2 m2 l2 cb) :
    Reads d m l (a ++ b) d2 m2 l2 (ca ++ cb) := by
  intro s hs
  obtain ⟨o1, s1, e1, b1, c1⟩ := ha s hs
  obtain ⟨o2, s2, e2, b2, c2⟩ := hb s1 b1
  refine ⟨o1 ++ o2, s2, ?_, b2, ?_⟩
  · rw [xmlRun_append, e1]; simp only [e2]
  · intro r; rw [Regs.run_append]; simp only [c1, c2]

theorem Reads.nil (d : Bool) (m : Meta) (l : ObjType) : Reads d m l [] d m l [] :=
  fun s hs => ⟨[], s, rfl, hs, fun r => rfl⟩

theorem run_emits (r : Regs) (l : List Cb) : r.run (l.map ROp.emit) = (r, l) := by
  induction l with
  | nil => rfl
  | cons c l ih => simp [Regs.run, Regs.step, ih]

theorem startElement_object (s : XCtl) (o : OsmObj) (as : XAttrs) (hc : s.ctx = .top) :
    startElement s (elementName o) as = startObject s o.type (ctxOf o.type) as := by
  cases o <;> simp [startElement, hc, elementName, OsmObj.type, ctxOf]

theorem call_object (r : Regs) (t : ObjType) (ht : t.IsObj) :
    r.step (.call t) = (r, [.obj (r.get t)]) := by
  rcases ht with rfl | rfl | rfl <;> rfl

theorem isObj_type (o : OsmObj) : o.type.IsObj := by
  cases o <;> simp [ObjType.IsObj, OsmObj.type]

/-- The visible flag of an object when it has been read. -/
theorem keepAttrs_kept (ft : FileType) (o : Obj) (d : Bool)
    (hd : d = (decide (ft = .change) && !o.visible)) :
    { keepAttrs ft o { Obj.new with visible := !d } with
      tags := (keepAttrs ft o { Obj.new with visible := !d }).tags ++ o.tags } = xmlKeptAttrs ft o := by
  have hm : (ft.multi = true ∧ ft ≠ .change) ↔ ft = .history := by
    cases ft <;> simp [FileType.multi]
  simp only [keepAttrs, xmlKeptAttrs, Obj.new, hm]
  congr 1
  · split
    · rfl
    · rename_i h; simp at h; exact h.symm
  · split
    · rfl
    · rename_i h; simp at h; exact h.symm
  · split
    · rfl
    · rename_i h; simp at h; exact h.symm
  · subst hd; cases ft <;> simp

theorem reads_obj (ft : FileType) (o : OsmObj) (h : XmlOk o) (d : Bool) (m : Meta) (last : ObjType)
    (hd : d = (decide (ft = .change) && !o.obj.visible)) :
    Reads d m last (objEvs ft o) d m o.type (afterAndBefore m last o.type ++ [.obj (xmlKept ft o)]) := by
  intro s ⟨hc, hdel, hinfo, hlast⟩
  have ht := isObj_type o
  obtain ⟨g, ⟨ops3, ea, ga⟩, hg⟩ := objAttrs_to ft o h (s.hasNode || o.type == .node)
    (by intro h; simp [h])
  -- the start tag
  let s1 : XCtl := { s with last := o.type, cur := some o.type, ctx := ctxOf o.type,
                            hasNode := s.hasNode || o.type == .node,
                            hasRel := s.hasRel || o.type == .relation }
  have e1 : startElement s (elementName o) (objAttrs ft o) =
      ((afterAndBefore s.info s.last o.type).map ROp.emit ++ [ROp.prepare o.type] ++
        (if s.inDelete then ROp.modObj o.type fun o => { o with visible := false } else []) ++ ops3,
       .ok s1) := by
    rw [startElement_object s o _ hc]
    simp only [startObject, ea, s1]
  obtain ⟨g2, ⟨ops4, s2, e2, hs2, gk⟩, hk⟩ := inner_kids o h s1 rfl rfl (by intro h; simp [s1, h])
  have hs2' : s2 = { s1 with lastCtx := s2.lastCtx } := hs2
  -- the end tag
  have e3 : endElement s2 (elementName o) =
      ([.call o.type], .ok { s2 with cur := none, ctx := .top }) := by
    have : s2.ctx = ctxOf o.type := by rw [hs2']
    unfold endElement
    cases o <;> simp only [this, ctxOf, OsmObj.type]
  refine ⟨((afterAndBefore s.info s.last o.type).map ROp.emit ++ [ROp.prepare o.type] ++
        (if s.inDelete then ROp.modObj o.type fun o => { o with visible := false } else []) ++ ops3) ++
      (ops4 ++ [.call o.type]), { s2 with cur := none, ctx := .top }, ?_, ?_, ?_⟩
  · unfold objEvs
    rw [List.append_assoc, List.singleton_append, xmlRun_cons]
    simp only [xmlStep, e1]
    rw [xmlRun_append, e2]
    simp only [xmlRun, xmlStep, e3, List.append_nil]
  · rw [hs2']
    exact ⟨rfl, hdel, hinfo, rfl⟩
  · intro r
    simp only [Regs.run_append, run_emits, List.nil_append]
    rw [hinfo, hlast]
    have hp : ∀ r : Regs, r.run [ROp.prepare o.type] = ((r.step (.prepare o.type)).1, []) := by
      intro r; rcases ht with h | h | h <;> rw [h] <;> rfl
    simp only [hp, List.append_nil]
    have hdelop : OpsTo o.type (if s.inDelete then ROp.modObj o.type fun o => { o with visible := false } else [])
        (if s.inDelete then OsmObj.mapObj fun o => { o with visible := false } else id) := by
      split
      · exact OpsTo.modObj ht _
      · exact OpsTo.nil _
    have h4 := hdelop ((r.step (.prepare o.type)).1)
    rw [h4.2, List.append_nil]
    generalize hr4 : ((r.step (.prepare o.type)).1.run _).1 = r4 at h4 ⊢
    have h5 := ga r4
    rw [h5.2, List.append_nil]
    generalize hr5 : (r4.run ops3).1 = r5 at h5 ⊢
    have h6 := gk r5
    rw [h6.2, List.nil_append]
    generalize hr6 : (r5.run ops4).1 = r6 at h6 ⊢
    congr 1
    simp only [Regs.run, call_object r6 o.type ht, List.append_nil, List.cons.injEq, and_true,
      Cb.obj.injEq]
    rw [h6.1, h5.1, h4.1]
    have hvis : (if s.inDelete then OsmObj.mapObj (fun o => { o with visible := false }) else id)
        ((r.step (.prepare o.type)).1.get o.type) =
        ((r.step (.prepare o.type)).1.get o.type).mapObj fun p => { p with visible := !d } := by
      rw [hdel]
      cases d
      · cases o <;> rfl
      · cases o <;> rfl
    rw [hvis, hg r (!d)]
    cases o with
    | node n =>
      rw [hk (keepAttrs ft n.obj { Obj.new with visible := !d })
        (if n.position.defined then n.position else Position.undef)]
      simp only [xmlKept, keepAttrs_kept ft n.obj d hd]
    | way w =>
      rw [hk (keepAttrs ft w.obj { Obj.new with visible := !d }) Position.undef]
      simp only [xmlKept, keepAttrs_kept ft w.obj d hd]
    | relation x =>
      rw [hk (keepAttrs ft x.obj { Obj.new with visible := !d }) Position.undef]
      simp only [xmlKept, keepAttrs_kept ft x.obj d hd]

theorem reads_open (d : Bool) (m : Meta) (l : ObjType) (n : String)
    (h : n = "create" ∨ n = "modify" ∨ n = "delete") :
    Reads d m l [.start n []] (d || decide (n = "delete")) m l [] := by
  intro s ⟨hc, hdel, hinfo, hlast⟩
  refine ⟨[], { s with inDelete := d || decide (n = "delete") }, ?_, ⟨hc, rfl, hinfo, hlast⟩, fun r => rfl⟩
  rcases h with rfl | rfl | rfl <;> simp [xmlRun, xmlStep, startElement, hc, ← hdel] <;>
    cases s <;> simp_all

theorem reads_close (d : Bool) (m : Meta) (l : ObjType) (n : String)
    (h : n = "create" ∨ n = "modify" ∨ n = "delete") :
    Reads d m l [.stop n] (d && decide (n ≠ "delete")) m l [] := by
  intro s ⟨hc, hdel, hinfo, hlast⟩
  refine ⟨[], { s with inDelete := d && decide (n ≠ "delete") }, ?_, ⟨hc, rfl, hinfo, hlast⟩, fun r => rfl⟩
  rcases h with rfl | rfl | rfl <;> simp [xmlRun, xmlStep, endElement, hc, ← hdel] <;>
    cases s <;> simp_all

theorem secName_delete (c : Char) (h : IsOp (some c)) : (secName c = "delete") ↔ c = 'd' := by
  rcases h with h | h | h | h
  · cases h
  all_goals cases h; simp [secName]

theorem secName_or (c : Char) : secName c = "create" ∨ secName c = "modify" ∨ secName c = "delete" := by
  unfold secName; split <;> [skip; split] <;> simp

theorem reads_sec (m : Meta) (l : ObjType) (last op : Option Char) (h1 : IsOp last) (h2 : IsOp op) :
    Reads (decide (last = some 'd')) m l (secEvs last op) (decide (op = some 'd')) m l [] := by
  unfold secEvs
  split
  · rename_i h; subst h; exact Reads.nil _ _ _
  · refine Reads.append (d1 := false) (m1 := m) (l1 := l) (ca := []) (cb := []) ?_ ?_
    · cases last with
      | none => simpa using Reads.nil false m l
      | some c =>
        have := reads_close (decide (some c = some 'd')) m l (secName c) (secName_or c)
        convert this using 1
        have := secName_delete c h1
        by_cases hc : c = 'd'
        · subst hc; decide
        · simp [hc, this]
    · cases op with
      | none => simpa using Reads.nil false m l
      | some c =>
        have := reads_open false m l (secName c) (secName_or c)
        convert this using 1
        have := secName_delete c h2
        by_cases hc : c = 'd'
        · subst hc; decide
        · simp [hc, this]

theorem reads_objs (ft : FileType) (m : Meta) (l : ObjType) (last : Option Char) (h : IsOp last)
    (os : List OsmObj) (ho : ∀ o ∈ os, XmlOk o) :
    Reads (decide (last = some 'd')) m l (objsEvs ft last os) (decide (opAfter ft last os = some 'd')) m
      (lastType l (os.map (xmlKept ft))) (seqCalls m l (os.map (xmlKept ft))) := by
  induction os generalizing l last with
  | nil => exact Reads.nil _ _ _
  | cons o os ih =>
    have hty : (xmlKept ft o).type = o.type := by cases o <;> rfl
    rw [opAfter_cons, List.map_cons, lastType_cons, hty]
    have h1 := reads_sec m l last (opFor ft o) h (isOp_opFor ft o)
    have h2 := reads_obj ft o (ho o (by simp)) (decide (opFor ft o = some 'd')) m l (by
      unfold opFor opOf
      by_cases hft : ft = .change
      · simp only [hft, if_true, decide_true, Bool.true_and]
        cases o.obj.visible
        · simp
        · simp; split <;> decide
      · simp [hft])
    have h3 := ih o.type (opFor ft o) (isOp_opFor ft o) (fun x hx => ho x (by simp [hx]))
    have h4 := (h1.append h2).append h3
    have hs : seqCalls m l (xmlKept ft o :: os.map (xmlKept ft)) =
        [] ++ (afterAndBefore m l o.type ++ [.obj (xmlKept ft o)]) ++
          seqCalls m o.type (os.map (xmlKept ft)) := by
      simp [seqCalls, hty]
    rw [hs]
    exact h4

/-- The metadata the reader has after it has read the root element and the bounds. -/
def xmlReadMeta (ft : FileType) (gen : String) (m : Meta) : Meta :=
  { bounds := if m.bounds.defined then m.bounds else Bounds.empty, generator := gen, multi := ft.multi }

theorem reads_bounds (ft : FileType) (gen : String) (m : Meta) (l : ObjType)
    (hb : m.bounds.defined = true → m.bounds.bottomLeft.WF ∧ m.bounds.topRight.WF ∧
      m.bounds.bottomLeft.x ≤ m.bounds.topRight.x ∧ m.bounds.bottomLeft.y ≤ m.bounds.topRight.y) :
    Reads false ⟨Bounds.empty, gen, ft.multi⟩ l (boundsEvs m.bounds) false (xmlReadMeta ft gen m) l [] := by
  intro s ⟨hc, hdel, hinfo, hlast⟩
  unfold boundsEvs xmlReadMeta
  split
  · rename_i hd
    obtain ⟨⟨w1, w2⟩, ⟨w3, w4⟩, lx, ly⟩ := hb hd
    refine ⟨[], { s with info := ⟨m.bounds, gen, ft.multi⟩ }, ?_, ⟨hc, hdel, rfl, hlast⟩, fun r => rfl⟩
    have ha : boundsAttrs Position.undef Position.undef
        [("minlon", str (Text.fmt7 (fixToDouble m.bounds.bottomLeft.x))),
         ("minlat", str (Text.fmt7 (fixToDouble m.bounds.bottomLeft.y))),
         ("maxlon", str (Text.fmt7 (fixToDouble m.bounds.topRight.x))),
         ("maxlat", str (Text.fmt7 (fixToDouble m.bounds.topRight.y)))] =
        some (m.bounds.bottomLeft, m.bounds.topRight) := by
      simp [boundsAttrs, textToFix_fix, w1, w2, w3, w4]
    have he : ((Bounds.empty.extend m.bounds.bottomLeft).extend m.bounds.topRight) = m.bounds := by
      have h0 : Bounds.empty.extend m.bounds.bottomLeft = ⟨m.bounds.bottomLeft, m.bounds.bottomLeft⟩ := by
        simp [Bounds.extend, Bounds.empty, Position.undef, Position.defined]
      rw [h0]
      have hd' : m.bounds.bottomLeft.defined = true := hd
      rcases hm : m.bounds with ⟨⟨ax, ay⟩, ⟨bx, b_y⟩⟩
      rw [hm] at hd' lx ly
      simp only [Bounds.extend, hd', if_true] at lx ly ⊢
      grind
    simp [xmlRun, xmlStep, startElement, endElement, hc, ha, hinfo, he]
  · exact ⟨[], s, rfl, ⟨hc, hdel, hinfo, hlast⟩, fun r => rfl⟩

/-- **C25 and C26**: take any sequence of objects (with values in the ranges of `XmlOk`), any of the
three file types, any metadata with bounds in order, and write them.  Reading the document again, with a
handler that does not throw, makes exactly the calls of the protocol for these objects, up to
the normalisation `xmlKept`. -/
theorem xml_roundtrip (ft : FileType) (gen : String) (m : Meta)
    (hb : m.bounds.defined = true → m.bounds.bottomLeft.WF ∧ m.bounds.topRight.WF ∧
      m.bounds.bottomLeft.x ≤ m.bounds.topRight.x ∧ m.bounds.bottomLeft.y ≤ m.bounds.topRight.y)
    (os : List OsmObj) (hne : os ≠ []) (ho : ∀ o ∈ os, XmlOk o)
    (evs : List XEv) (hw : xmlWrite ft gen m os = some evs)
    (h : Stops) (hh : ∀ l, h l = false) :
    xmlParse ft h ⟨evs, none⟩ =
      (protocol (xmlReadMeta ft gen m) (os.map (xmlKept ft)), .returned) := by
  rw [xmlWrite_eq, Option.some.injEq] at hw
  subst hw
  -- the root element
  let s0 : XCtl := { XCtl.init ft with info := ⟨Bounds.empty, gen, ft.multi⟩, ctx := .top }
  have e0 : xmlStep (XCtl.init ft) (.start (rootName ft) [("version", "0.6"), ("generator", gen)]) =
      ([], .ok s0) := by
    have : rootName ft = "osm" ∨ rootName ft = "osmChange" := by
      unfold rootName; split <;> simp
    simp [xmlStep, startElement, XCtl.init, this, rootAttrs, s0, Meta.new]
  have hop : IsOp (opAfter ft none os) := by
    unfold opAfter; split
    · left; rfl
    · exact isOp_opFor _ _
  have key := ((reads_bounds ft gen m .unknown hb).append
    (reads_objs ft (xmlReadMeta ft gen m) .unknown none (Or.inl rfl) os ho)).append
    (reads_sec (xmlReadMeta ft gen m) _ (opAfter ft none os) none hop (Or.inl rfl))
  obtain ⟨ops, s', e1, ⟨hc, hdel, hinfo, hlast⟩, hcalls⟩ := key s0 ⟨rfl, rfl, rfl, rfl⟩
  have e2 : xmlStep s' (.stop (rootName ft)) = ([], .ok { s' with ctx := .root }) := by
    have : rootName ft = "osm" ∨ rootName ft = "osmChange" := by
      unfold rootName; split <;> simp
    simp [xmlStep, endElement, hc, this]
  have e3 : xmlRun (XCtl.init ft) (docEvs ft gen m os) = (ops, .ok { s' with ctx := .root }) := by
    have : docEvs ft gen m os = .start (rootName ft) [("version", "0.6"), ("generator", gen)] ::
        ((boundsEvs m.bounds ++ objsEvs ft none os ++ secEvs (opAfter ft none os) none) ++
          [.stop (rootName ft)]) := by simp [docEvs]
    rw [this, xmlRun_cons, e0]
    simp only
    rw [xmlRun_append, e1]
    simp only [xmlRun, e2, List.append_nil, List.nil_append]
  unfold xmlParse
  simp only [e3]
  rw [no_stop _ _ h hh, hcalls]
  simp only [List.nil_append, List.append_nil]
  have := allCalls_protocol (xmlReadMeta ft gen m) (os.map (xmlKept ft)) (by simpa using hne)
  rw [← this]
  unfold allCalls
  rw [hinfo, hlast]

end Osmium
