import Verif.Xml.Model
import Verif.Xml.Spec
/-
The events produced by the XML writer.
-/
namespace Osmium

theorem TW.run_append (w : TW) (a b : List WCall) :
    w.run (a ++ b) = (w.run a).bind fun r => (r.1.run b).map fun r' => (r'.1, r.2 ++ r'.2) := by
  induction a generalizing w with
  | nil => simp [TW.run]
  | cons c a ih =>
    simp only [List.cons_append, TW.run, Option.bind_eq_bind]
    cases h : w.step c with
    | none => simp
    | some r =>
      simp only [Option.bind_some, ih]
      cases h2 : r.1.run a with
      | none => simp
      | some r2 =>
        simp only [Option.bind_some]
        cases h3 : r2.1.run b with
        | none => simp [h3]
        | some r3 => simp [h3]

/-- The calls `cs`, made while the elements `st` are open, succeed, produce the events `X` and leave
the elements `st'` open. -/
def Emits (st : List String) (cs : List WCall) (st' : List String) (X : List XEv) : Prop :=
  ∀ w : TW, w.stack = st → ∃ w' e, w.run cs = some (w', e) ∧ w'.stack = st' ∧
    e ++ w'.flush = w.flush ++ X

theorem Emits.nil (st : List String) : Emits st [] st [] :=
  fun w h => ⟨w, [], rfl, h, by simp⟩

theorem Emits.append {st st1 st2 : List String} {a b : List WCall} {X Y : List XEv}
    (ha : Emits st a st1 X) (hb : Emits st1 b st2 Y) : Emits st (a ++ b) st2 (X ++ Y) := by
  intro w hw
  obtain ⟨w1, e1, h1, s1, f1⟩ := ha w hw
  obtain ⟨w2, e2, h2, s2, f2⟩ := hb w1 s1
  refine ⟨w2, e1 ++ e2, ?_, s2, ?_⟩
  · rw [TW.run_append, h1]; simp [h2]
  · rw [List.append_assoc, f2, ← List.append_assoc, f1, List.append_assoc]

theorem TW.run_attrs (st : List String) (n : String) (as kvs : XAttrs) :
    TW.run ⟨st, some (n, as)⟩ (kvs.map fun a => WCall.attr a.1 a.2) =
      some (⟨st, some (n, as ++ kvs)⟩, []) := by
  induction kvs generalizing as with
  | nil => simp [TW.run]
  | cons a kvs ih => simp [TW.run, TW.step, ih]

theorem Emits.start (st : List String) (n : String) (kvs : XAttrs) :
    Emits st (WCall.start n :: kvs.map fun a => WCall.attr a.1 a.2) (n :: st) [.start n kvs] := by
  intro w hw
  refine ⟨⟨n :: st, some (n, kvs)⟩, w.flush, ?_, rfl, ?_⟩
  · simp [TW.run, TW.step, TW.run_attrs, hw]
  · simp [TW.flush]

theorem Emits.close (st : List String) (n : String) : Emits (n :: st) [.close] st [.stop n] := by
  intro w hw
  refine ⟨⟨st, none⟩, w.flush ++ [.stop n], ?_, rfl, ?_⟩
  · simp [TW.run, TW.step, hw]
  · simp [TW.flush]

/-- An element without children. -/
theorem Emits.leaf (st : List String) (n : String) (kvs : XAttrs) :
    Emits st (WCall.start n :: (kvs.map fun a => WCall.attr a.1 a.2) ++ [.close]) st
      [.start n kvs, .stop n] :=
  (Emits.start st n kvs).append (Emits.close st n)

theorem Emits.flatMap {α : Type} (st : List String) (l : List α) (f : α → List WCall)
    (g : α → List XEv) (h : ∀ x ∈ l, Emits st (f x) st (g x)) :
    Emits st (l.flatMap f) st (l.flatMap g) := by
  induction l with
  | nil => exact Emits.nil st
  | cons x l ih =>
    rw [List.flatMap_cons, List.flatMap_cons]
    exact (h x (by simp)).append (ih fun y hy => h y (by simp [hy]))

/-- The attributes written by `write_meta`. -/
def metaAttrs (ft : FileType) (o : Obj) : XAttrs :=
  [("id", str (Text.intDec o.id))] ++
  (if o.version ≠ 0 then [("version", str (Text.intDec (wrapS32 o.version)))] else []) ++
  (if o.timestamp ≠ 0 then [("timestamp", str (Time.toIso o.timestamp))] else []) ++
  (if o.uid > 0 then [("uid", str (Text.intDec o.uid)), ("user", o.user)] else []) ++
  (if o.changeset ≠ 0 then [("changeset", str (Text.intDec o.changeset))] else []) ++
  (if ft.multi ∧ ft ≠ .change then [("visible", if o.visible then "true" else "false")] else [])

theorem writeMeta_eq (ft : FileType) (o : Obj) :
    writeMeta ft o = (metaAttrs ft o).map fun a => WCall.attr a.1 a.2 := by
  simp only [writeMeta, metaAttrs, List.map_append, List.map_cons, List.map_nil]
  congr 1
  · congr 1
    · congr 1
      · congr 1
        · congr 1
          split <;> rfl
        · split <;> rfl
      · split <;> rfl
    · split <;> rfl
  · split <;> rfl

/-- The attributes with the position of a node. -/
def posAttrs (p : Position) : XAttrs :=
  if p.defined then
    [("lat", str (Text.fmt7 (fixToDouble p.y))), ("lon", str (Text.fmt7 (fixToDouble p.x)))] else []

/-- The attributes of the element of an object. -/
def objAttrs (ft : FileType) : OsmObj → XAttrs
  | .node n => metaAttrs ft n.obj ++ posAttrs n.position
  | .way w => metaAttrs ft w.obj
  | .relation r => metaAttrs ft r.obj

/-- The events for a tag. -/
def tagEvs (t : Tag) : List XEv := [.start "tag" [("k", t.key), ("v", t.value)], .stop "tag"]

/-- The events for a way node. -/
def ndEvs (n : WayNode) : List XEv := [.start "nd" [("ref", str (Text.intDec n.ref))], .stop "nd"]

/-- The events for a member. -/
def memberEvs (m : Member) : List XEv :=
  [.start "member" [("type", m.typeName), ("ref", str (Text.intDec m.ref)), ("role", m.role)],
   .stop "member"]

/-- The events for the children of the element of an object. -/
def kidEvs : OsmObj → List XEv
  | .node n => n.obj.tags.flatMap tagEvs
  | .way w => w.nodes.flatMap ndEvs ++ w.obj.tags.flatMap tagEvs
  | .relation r => r.members.flatMap memberEvs ++ r.obj.tags.flatMap tagEvs

/-- The events for an object. -/
def objEvs (ft : FileType) (o : OsmObj) : List XEv :=
  [.start (Spec.elementName o) (objAttrs ft o)] ++ kidEvs o ++ [.stop (Spec.elementName o)]

theorem emits_tags (st : List String) (ts : TagList) :
    Emits st (writeTags ts) st (ts.flatMap tagEvs) :=
  Emits.flatMap st ts _ _ fun t _ => Emits.leaf st "tag" [("k", t.key), ("v", t.value)]

theorem emits_body (ft : FileType) (st : List String) (o : OsmObj) :
    Emits st (writeBody ft o) st (objEvs ft o) := by
  cases o with
  | node n =>
    have hp : (if n.position.defined then
        [WCall.attr "lat" (str (Text.fmt7 (fixToDouble n.position.y))),
         .attr "lon" (str (Text.fmt7 (fixToDouble n.position.x)))] else []) =
        (posAttrs n.position).map fun a => WCall.attr a.1 a.2 := by
      unfold posAttrs; split <;> rfl
    simp only [writeBody, objEvs, writeMeta_eq, hp, List.append_assoc]
    rw [← List.append_assoc (List.map _ _), ← List.append_assoc [WCall.start "node"], ← List.map_append]
    exact (Emits.start st "node" _).append ((emits_tags _ _).append (Emits.close _ _))
  | way w =>
    simp only [writeBody, objEvs, writeMeta_eq, List.append_assoc]
    rw [← List.append_assoc [WCall.start "way"]]
    refine (Emits.start st "way" _).append ?_
    rw [← List.append_assoc]
    refine Emits.append ?_ (Emits.close _ _)
    refine Emits.append ?_ (emits_tags _ _)
    exact Emits.flatMap _ _ _ _ fun n _ => Emits.leaf _ "nd" [("ref", str (Text.intDec n.ref))]
  | relation r =>
    simp only [writeBody, objEvs, writeMeta_eq, List.append_assoc]
    rw [← List.append_assoc [WCall.start "relation"]]
    refine (Emits.start st "relation" _).append ?_
    rw [← List.append_assoc]
    refine Emits.append ?_ (Emits.close _ _)
    refine Emits.append ?_ (emits_tags _ _)
    exact Emits.flatMap _ _ _ _ fun m _ => Emits.leaf _ "member"
      [("type", m.typeName), ("ref", str (Text.intDec m.ref)), ("role", m.role)]

/-- The name of a section. -/
def secName (c : Char) : String := if c = 'c' then "create" else if c = 'm' then "modify" else "delete"

/-- The open elements while writing objects. -/
def openEls (ft : FileType) (last : Option Char) : List String :=
  match last with
  | none => [rootName ft]
  | some c => [secName c, rootName ft]

/-- The events for the change from one section to the next. -/
def secEvs (last op : Option Char) : List XEv :=
  if op = last then []
  else (match last with | none => [] | some c => [.stop (secName c)]) ++
    (match op with | none => [] | some c => [.start (secName c) []])

/-- One of the three section characters, or none. -/
def IsOp (o : Option Char) : Prop := o = none ∨ o = some 'c' ∨ o = some 'm' ∨ o = some 'd'

theorem isOp_opOf (o : Obj) : IsOp (some (opOf o)) := by
  unfold opOf IsOp; split <;> [split; skip] <;> simp

theorem emits_opTag (ft : FileType) (last op : Option Char) (h : IsOp last) (h' : IsOp op) :
    Emits (openEls ft last) (opTag last op).1 (openEls ft op) (secEvs last op) ∧
      (opTag last op).2 = op := by
  have hop : ∀ c, IsOp (some c) → Emits [rootName ft]
      (if (some c : Option Char) = some 'c' then [WCall.start "create"] else if (some c : Option Char) = some 'm' then
        [.start "modify"] else if (some c : Option Char) = some 'd' then [.start "delete"] else [])
      [secName c, rootName ft] [.start (secName c) []] := by
    intro c hc
    rcases hc with h | h | h | h
    · cases h
    all_goals
      cases h
      exact Emits.start _ _ []
  unfold opTag secEvs
  by_cases he : op = last
  · subst he; simp only [if_true, and_true]; exact Emits.nil _
  · simp only [he, if_false, and_true]
    refine Emits.append (st1 := [rootName ft]) ?_ ?_
    · cases last with
      | none => exact Emits.nil _
      | some c => exact Emits.close _ _
    · cases op with
      | none => exact Emits.nil _
      | some c => exact hop c h'

/-- The section of an object as character; none in files without sections. -/
def opFor (ft : FileType) (o : OsmObj) : Option Char :=
  if ft = .change then some (opOf o.obj) else none

/-- The events for a sequence of objects. -/
def objsEvs (ft : FileType) : Option Char → List OsmObj → List XEv
  | _, [] => []
  | last, o :: os => secEvs last (opFor ft o) ++ objEvs ft o ++ objsEvs ft (opFor ft o) os

/-- The section after a sequence of objects. -/
def opAfter (ft : FileType) (last : Option Char) (os : List OsmObj) : Option Char :=
  match os.getLast? with
  | none => last
  | some o => opFor ft o

theorem opAfter_cons (ft : FileType) (last : Option Char) (o : OsmObj) (os : List OsmObj) :
    opAfter ft last (o :: os) = opAfter ft (opFor ft o) os := by
  unfold opAfter
  cases h : os.getLast? with
  | none =>
    have : os = [] := by simpa using h
    subst this; rfl
  | some x => rw [List.getLast?_cons, h]; rfl

theorem isOp_opFor (ft : FileType) (o : OsmObj) : IsOp (opFor ft o) := by
  unfold opFor; split
  · exact isOp_opOf _
  · left; rfl

theorem emits_objs (ft : FileType) (last : Option Char) (os : List OsmObj) (h : IsOp last)
    (hc : ft ≠ .change → last = none) :
    Emits (openEls ft last) (writeObjs ft last os).1 (openEls ft (opAfter ft last os))
      (objsEvs ft last os) ∧ (writeObjs ft last os).2 = opAfter ft last os := by
  induction os generalizing last with
  | nil => exact ⟨Emits.nil _, rfl⟩
  | cons o os ih =>
    have key : Emits (openEls ft last) (writeObj ft last o).1 (openEls ft (opFor ft o))
        (secEvs last (opFor ft o) ++ objEvs ft o) ∧ (writeObj ft last o).2 = opFor ft o := by
      unfold writeObj opFor
      split
      · rename_i hft
        have := emits_opTag ft last (some (opOf o.obj)) h (isOp_opOf _)
        exact ⟨this.1.append (emits_body ft _ o), this.2⟩
      · rename_i hft
        have hl := hc hft
        subst hl
        refine ⟨?_, rfl⟩
        have := emits_body ft (openEls ft none) o
        simpa [secEvs] using this
    have h2 := ih (opFor ft o) (isOp_opFor ft o) (fun h => by simp [opFor, h])
    rw [opAfter_cons]
    simp only [writeObjs, objsEvs, key.2]
    exact ⟨key.1.append h2.1, h2.2⟩

/-- The events for the `bounds` element. -/
def boundsEvs (b : Bounds) : List XEv :=
  if b.defined then
    [.start "bounds"
      [("minlon", str (Text.fmt7 (fixToDouble b.bottomLeft.x))),
       ("minlat", str (Text.fmt7 (fixToDouble b.bottomLeft.y))),
       ("maxlon", str (Text.fmt7 (fixToDouble b.topRight.x))),
       ("maxlat", str (Text.fmt7 (fixToDouble b.topRight.y)))], .stop "bounds"]
  else []

/-- The events for the whole document. -/
def docEvs (ft : FileType) (gen : String) (m : Meta) (os : List OsmObj) : List XEv :=
  [.start (rootName ft) [("version", "0.6"), ("generator", gen)]] ++ boundsEvs m.bounds ++
    objsEvs ft none os ++ secEvs (opAfter ft none os) none ++ [.stop (rootName ft)]

theorem xmlWrite_eq (ft : FileType) (gen : String) (m : Meta) (os : List OsmObj) :
    xmlWrite ft gen m os = some (docEvs ft gen m os) := by
  have h1 : Emits [] (writeInit ft gen m) [rootName ft]
      ([.start (rootName ft) [("version", "0.6"), ("generator", gen)]] ++ boundsEvs m.bounds) := by
    refine Emits.append (Emits.start [] (rootName ft) [("version", "0.6"), ("generator", gen)]) ?_
    unfold writeBounds boundsEvs
    split
    · exact Emits.leaf _ "bounds"
        [("minlon", str (Text.fmt7 (fixToDouble m.bounds.bottomLeft.x))),
         ("minlat", str (Text.fmt7 (fixToDouble m.bounds.bottomLeft.y))),
         ("maxlon", str (Text.fmt7 (fixToDouble m.bounds.topRight.x))),
         ("maxlat", str (Text.fmt7 (fixToDouble m.bounds.topRight.y)))]
    · exact Emits.nil _
  have h2 := emits_objs ft none os (Or.inl rfl) (fun _ => rfl)
  have hop : IsOp (opAfter ft none os) := by
    unfold opAfter; split
    · left; rfl
    · exact isOp_opFor _ _
  have h3 : Emits (openEls ft (opAfter ft none os)) (writeFinal ft (opAfter ft none os)) []
      (secEvs (opAfter ft none os) none ++ [.stop (rootName ft)]) := by
    unfold writeFinal
    refine Emits.append (st1 := [rootName ft]) ?_ (Emits.close _ _)
    split
    · exact (emits_opTag ft _ none hop (Or.inl rfl)).1
    · rename_i hft
      have : opAfter ft none os = none := by
        unfold opAfter opFor; simp only [hft, if_false]; split <;> rfl
      rw [this]; exact Emits.nil _
  have h4 := (h1.append h2.1).append h3
  obtain ⟨w', e, hr, _, hf⟩ := h4 TW.init rfl
  unfold xmlWrite writeFile
  simp only [h2.2] at hr ⊢
  rw [hr]
  simp only [Option.map_some, Option.some.injEq]
  rw [hf]
  simp [TW.init, TW.flush, docEvs]

end Osmium
