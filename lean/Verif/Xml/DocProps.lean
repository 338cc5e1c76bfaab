import Verif.Xml.Props
import Verif.Xml.DocSpec
/-
C27 and the XML side of C21 and C22.
-/
namespace Osmium
open Spec

/-! ### The state of the reader -/

/-- What holds of the state of the reader after any sequence of events. -/
structure XInv (s : XCtl) : Prop where
  last : ReaderType s.last
  node : s.ctx = .node → s.last = .node ∧ s.cur = some .node
  way : s.ctx = .way → s.last = .way ∧ s.cur = some .way
  relation : s.ctx = .relation → s.last = .relation ∧ s.cur = some .relation
  inner : s.ctx = .inObject →
    (s.lastCtx = .node ∧ s.last = .node ∧ s.cur = some .node) ∨
    (s.lastCtx = .way ∧ s.last = .way ∧ s.cur = some .way) ∨
    (s.lastCtx = .relation ∧ s.last = .relation ∧ s.cur = some .relation)

theorem xInv_init (ft : FileType) : XInv (XCtl.init ft) := by
  constructor <;> simp [XCtl.init, ReaderType]

/-- No callbacks. -/
def Silent (ops : List ROp) : Prop := ∀ r : Regs, (r.run ops).2 = []

theorem Silent.append {a b : List ROp} (ha : Silent a) (hb : Silent b) : Silent (a ++ b) := by
  intro r; rw [Regs.run_append]; simp [ha r, hb _]

theorem silent_nil : Silent [] := fun _ => rfl
theorem silent_modNode (f : Node → Node) : Silent [.modNode f] := fun _ => rfl
theorem silent_modWay (f : Way → Way) : Silent [.modWay f] := fun _ => rfl
theorem silent_modRel (f : Relation → Relation) : Silent [.modRel f] := fun _ => rfl
theorem silent_modObj (t : ObjType) (f : Obj → Obj) : Silent (ROp.modObj t f) := by
  unfold ROp.modObj; split <;> intro r <;> rfl
theorem silent_prepare (t : ObjType) : Silent [.prepare t] := by
  intro r; cases t <;> rfl

theorem silent_initAttrs (t : ObjType) (hn : Bool) (as : XAttrs) : Silent (initAttrs t hn as).1 := by
  induction as with
  | nil => exact silent_nil
  | cons a as ih =>
    obtain ⟨k, v⟩ := a
    simp only [initAttrs]
    split
    · split
      · split
        · exact silent_nil
        · exact (silent_modNode _).append ih
      · exact silent_nil.append ih
    · split
      · split
        · split
          · exact silent_nil
          · exact (silent_modNode _).append ih
        · exact silent_nil.append ih
      · split
        · exact silent_nil
        · exact (silent_modObj _ _).append ih

theorem silent_checkTag (cur : Option ObjType) (n : String) (as : XAttrs) (ops : List ROp)
    (h : checkTag cur n as = some ops) : Silent ops := by
  unfold checkTag at h
  split at h
  · split at h
    · cases h
    · cases h; exact silent_modObj _ _
  · cases h; exact silent_nil

/-- One event: the invariant is kept, and the observer of the protocol stays content. -/
theorem xmlStep_inv (s : XCtl) (h : XInv s) (e : XEv) :
    ∃ l, ReaderType l ∧
      (∀ r : Regs, (r.run (xmlStep s e).1).2.foldl PState.step (obsState s.last) = obsState l) ∧
      (∀ s', (xmlStep s e).2 = .ok s' → XInv s' ∧ s'.last = l) := by
  have sil : ∀ (ops : List ROp) (res : Except Fail XCtl), xmlStep s e = (ops, res) → Silent ops →
      (∀ s', res = .ok s' → XInv s' ∧ s'.last = s.last) →
      ∃ l, ReaderType l ∧
        (∀ r : Regs, (r.run (xmlStep s e).1).2.foldl PState.step (obsState s.last) = obsState l) ∧
        (∀ s', (xmlStep s e).2 = .ok s' → XInv s' ∧ s'.last = l) := by
    intro ops res he hs hi
    rw [he]
    exact ⟨s.last, h.last, fun r => by rw [hs r]; rfl, hi⟩
  obtain ⟨hl, hn, hw, hr, hi⟩ := h
  cases e with
  | start n as =>
    rcases hc : s.ctx with _ | _ | _ | _ | _ | _
    · -- root
      by_cases ho : n = "osm" ∨ n = "osmChange"
      · cases hra : rootAttrs s.info as with
        | error e =>
          exact sil [] (.error e) (by simp [xmlStep, startElement, hc, ho, hra]) silent_nil (by simp)
        | ok m =>
          refine sil [] (.ok { s with info := m, ctx := .top })
            (by simp [xmlStep, startElement, hc, ho, hra]) silent_nil ?_
          intro s' hs; cases hs
          exact ⟨⟨hl, by simp, by simp, by simp, by simp⟩, rfl⟩
      · refine sil [] (.ok { s with ctx := .top })
          (by simp [xmlStep, startElement, hc, ho]) silent_nil ?_
        intro s' hs; cases hs
        exact ⟨⟨hl, by simp, by simp, by simp, by simp⟩, rfl⟩
    · -- top
      have obj : ∀ (t : ObjType), t.IsObj → startElement s n as = startObject s t (ctxOf t) as →
          ∃ l, ReaderType l ∧
            (∀ r : Regs, (r.run (xmlStep s (.start n as)).1).2.foldl PState.step (obsState s.last) = obsState l) ∧
            (∀ s', (xmlStep s (.start n as)).2 = .ok s' → XInv s' ∧ s'.last = l) := by
        intro t ht he
        have hrt : ReaderType t := by rcases ht with rfl | rfl | rfl <;> simp [ReaderType]
        refine ⟨t, hrt, ?_, ?_⟩
        · intro r
          simp only [xmlStep, he, startObject]
          have hs : Silent ([ROp.prepare t] ++ ((if s.inDelete then ROp.modObj t fun o => { o with visible := false } else []) ++
              (initAttrs t (s.hasNode || t == .node) as).1)) := by
            refine (silent_prepare t).append (Silent.append ?_ (silent_initAttrs _ _ _))
            split
            · exact silent_modObj _ _
            · exact silent_nil
          rw [List.append_assoc, List.append_assoc, Regs.run_append, run_emits, hs]
          simp only [List.append_nil]
          exact obs_after_before s.info s.last t hl ht
        · intro s' hs'
          simp only [xmlStep, he, startObject] at hs'
          cases hia : (initAttrs t (s.hasNode || t == .node) as).2 with
          | some f => rw [hia] at hs'; cases hs'
          | none =>
            rw [hia] at hs'
            cases hs'
            refine ⟨?_, rfl⟩
            rcases ht with rfl | rfl | rfl <;> constructor <;> simp [ctxOf, ReaderType]
      by_cases h1 : n = "node"
      · exact obj .node (Or.inl rfl) (by simp [startElement, hc, h1, ctxOf])
      by_cases h2 : n = "way"
      · exact obj .way (Or.inr (Or.inl rfl)) (by simp [startElement, hc, h2, ctxOf])
      by_cases h3 : n = "relation"
      · exact obj .relation (Or.inr (Or.inr rfl)) (by simp [startElement, hc, h3, ctxOf])
      by_cases h4 : n = "bounds"
      · cases hb : boundsAttrs Position.undef Position.undef as with
        | none => exact sil [] (.error .ub) (by simp [xmlStep, startElement, hc, h4, hb]) silent_nil (by simp)
        | some p =>
          refine sil [] (.ok { s with info := { s.info with bounds := (s.info.bounds.extend p.1).extend p.2 } })
            (by simp [xmlStep, startElement, hc, h4, hb]) silent_nil ?_
          intro s' hs; cases hs
          exact ⟨⟨hl, by simp [hc], by simp [hc], by simp [hc], by simp [hc]⟩, rfl⟩
      by_cases h5 : n = "delete"
      · refine sil [] (.ok { s with inDelete := true })
          (by simp [xmlStep, startElement, hc, h5]) silent_nil ?_
        intro s' hs; cases hs
        exact ⟨⟨hl, by simp [hc], by simp [hc], by simp [hc], by simp [hc]⟩, rfl⟩
      · refine sil [] (.ok s) (by simp [xmlStep, startElement, hc, h1, h2, h3, h4, h5]) silent_nil ?_
        intro s' hs; cases hs
        exact ⟨⟨hl, hn, hw, hr, hi⟩, rfl⟩
    · -- node
      cases hk : checkTag s.cur n as with
      | none => exact sil [] (.error .ub) (by simp [xmlStep, startElement, hc, hk, xinner]) silent_nil (by simp)
      | some ops =>
        refine sil ops (.ok { s with lastCtx := .node, ctx := .inObject })
          (by simp [xmlStep, startElement, hc, hk, xinner]) (silent_checkTag _ _ _ _ hk) ?_
        intro s' hs; cases hs
        exact ⟨⟨hl, by simp, by simp, by simp, fun _ => Or.inl ⟨rfl, hn hc⟩⟩, rfl⟩
    · -- way
      have fin : ∀ s', (Except.ok { s with lastCtx := .way, ctx := .inObject } : Except Fail XCtl) = .ok s' →
          XInv s' ∧ s'.last = s.last := by
        intro s' hs; cases hs
        exact ⟨⟨hl, by simp, by simp, by simp, fun _ => Or.inr (Or.inl ⟨rfl, hw hc⟩)⟩, rfl⟩
      by_cases h1 : n = "nd"
      · refine sil ((as.filter fun a => decide (a.1 = "ref")).map fun a =>
            .modWay fun w => { w with nodes := w.nodes ++ [{ ref := strToId a.2 }] })
          (.ok { s with lastCtx := .way, ctx := .inObject })
          (by simp only [xmlStep, startElement, hc, h1, xinner, if_true]) ?_ fin
        generalize as.filter _ = l
        induction l with
        | nil => exact silent_nil
        | cons a l ih => rw [List.map_cons]; exact (silent_modWay _).append ih
      · cases hk : checkTag s.cur n as with
        | none => exact sil [] (.error .ub) (by simp [xmlStep, startElement, hc, hk, xinner, h1]) silent_nil (by simp)
        | some ops =>
          exact sil ops (.ok { s with lastCtx := .way, ctx := .inObject })
            (by simp [xmlStep, startElement, hc, hk, xinner, h1]) (silent_checkTag _ _ _ _ hk) fin
    · -- relation
      have fin : ∀ s', (Except.ok { s with lastCtx := .relation, ctx := .inObject } : Except Fail XCtl) = .ok s' →
          XInv s' ∧ s'.last = s.last := by
        intro s' hs; cases hs
        exact ⟨⟨hl, by simp, by simp, by simp, fun _ => Or.inr (Or.inr ⟨rfl, hr hc⟩)⟩, rfl⟩
      by_cases h1 : n = "member"
      · have hsil : Silent (memberOp s as).1 := by
          unfold memberOp; dsimp only; split
          · exact silent_modRel _
          · exact silent_nil
        rcases hm : memberOp s as with ⟨ops, e⟩
        rw [hm] at hsil
        cases e with
        | some e => exact sil ops (.error e) (by simp [xmlStep, startElement, hc, h1, hm]) hsil (by simp)
        | none =>
          exact sil ops (.ok { s with lastCtx := .relation, ctx := .inObject })
            (by simp [xmlStep, startElement, hc, h1, hm, xinner]) hsil fin
      · cases hk : checkTag s.cur n as with
        | none => exact sil [] (.error .ub) (by simp [xmlStep, startElement, hc, hk, xinner, h1]) silent_nil (by simp)
        | some ops =>
          exact sil ops (.ok { s with lastCtx := .relation, ctx := .inObject })
            (by simp [xmlStep, startElement, hc, hk, xinner, h1]) (silent_checkTag _ _ _ _ hk) fin
    · exact sil [] (.error .assertion) (by simp [xmlStep, startElement, hc]) silent_nil (by simp)
  | stop n =>
    have call : ∀ t : ObjType, t.IsObj → s.last = t →
        xmlStep s (.stop n) = ([.call t], .ok { s with cur := none, ctx := .top }) →
        ∃ l, ReaderType l ∧
          (∀ r : Regs, (r.run (xmlStep s (.stop n)).1).2.foldl PState.step (obsState s.last) = obsState l) ∧
          (∀ s', (xmlStep s (.stop n)).2 = .ok s' → XInv s' ∧ s'.last = l) := by
      intro t ht hlt he
      rw [he]
      refine ⟨s.last, hl, ?_, ?_⟩
      · intro r
        rcases ht with rfl | rfl | rfl <;> rw [hlt] <;> rfl
      · intro s' hs; cases hs
        exact ⟨⟨hl, by simp, by simp, by simp, by simp⟩, rfl⟩
    rcases hc : s.ctx with _ | _ | _ | _ | _ | _
    · exact sil [] (.error .assertion) (by simp [xmlStep, endElement, hc]) silent_nil (by simp)
    · by_cases ho : n = "osm" ∨ n = "osmChange"
      · refine sil [] (.ok { s with ctx := .root }) (by simp [xmlStep, endElement, hc, ho]) silent_nil ?_
        intro s' hs; cases hs
        exact ⟨⟨hl, by simp, by simp, by simp, by simp⟩, rfl⟩
      by_cases hd : n = "delete"
      · refine sil [] (.ok { s with inDelete := false }) (by simp [xmlStep, endElement, hc, hd]) silent_nil ?_
        intro s' hs; cases hs
        exact ⟨⟨hl, by simp [hc], by simp [hc], by simp [hc], by simp [hc]⟩, rfl⟩
      · refine sil [] (.ok s) (by simp [xmlStep, endElement, hc, ho, hd]) silent_nil ?_
        intro s' hs; cases hs
        exact ⟨⟨hl, hn, hw, hr, hi⟩, rfl⟩
    · exact call .node (Or.inl rfl) (hn hc).1 (by simp [xmlStep, endElement, hc])
    · exact call .way (Or.inr (Or.inl rfl)) (hw hc).1 (by simp [xmlStep, endElement, hc])
    · exact call .relation (Or.inr (Or.inr rfl)) (hr hc).1 (by simp [xmlStep, endElement, hc])
    · refine sil [] (.ok { s with ctx := s.lastCtx }) (by simp [xmlStep, endElement, hc]) silent_nil ?_
      intro s' hs; cases hs
      refine ⟨?_, rfl⟩
      rcases hi hc with ⟨a, b, c⟩ | ⟨a, b, c⟩ | ⟨a, b, c⟩ <;> constructor <;> simp [a, b, c, ReaderType]

theorem xmlRun_inv (s : XCtl) (h : XInv s) (es : List XEv) :
    ∃ l, ReaderType l ∧
      (∀ r : Regs, (r.run (xmlRun s es).1).2.foldl PState.step (obsState s.last) = obsState l) ∧
      (∀ s', (xmlRun s es).2 = .ok s' → XInv s' ∧ s'.last = l) := by
  induction es generalizing s with
  | nil => exact ⟨s.last, h.last, fun r => rfl, fun s' hs => by cases hs; exact ⟨h, rfl⟩⟩
  | cons e es ih =>
    obtain ⟨l1, h1, o1, k1⟩ := xmlStep_inv s h e
    rw [xmlRun_cons]
    cases hr : (xmlStep s e).2 with
    | error f => exact ⟨l1, h1, o1, by simp⟩
    | ok s1 =>
      obtain ⟨hi, hl⟩ := k1 s1 hr
      obtain ⟨l2, h2, o2, k2⟩ := ih s1 hi
      refine ⟨l2, h2, ?_, k2⟩
      intro r
      simp only [Regs.run_append, List.foldl_append]
      rw [o1, ← hl, o2]

/-- **C21, C22** for arbitrary XML (even malformed XML, or text that is not XML) and an arbitrary
handler: the calls other than `final` follow the protocol; `parse` either returns, and then `final`
has been called exactly once, after all other calls, or fails, and then `final` has not been
called. -/
theorem xml_protocol (ft : FileType) (h : Stops) (inp : XInput) :
    ∃ pre, FollowsSoFar pre ∧
      (xmlParse ft h inp = (pre ++ [.final], .returned) ∨
       ∃ e, xmlParse ft h inp = (pre, .threw e)) := by
  obtain ⟨l, hl, ho, hk⟩ := xmlRun_inv (XCtl.init ft) (xInv_init ft) inp.events
  unfold xmlParse
  rcases hr : xmlRun (XCtl.init ft) inp.events with ⟨ops, r⟩
  rw [hr] at ho hk
  cases r with
  | error e =>
    have := frame_protocol h ⟨(Regs.init.run ops).2, some e⟩ (Meta.new false) .unknown
      ⟨by simp [ReaderType], l, hl, ho _, by simp⟩
    simpa [afterAndBefore] using this
  | ok s =>
    exact frame_protocol h ⟨(Regs.init.run ops).2, inp.error⟩ s.info s.last
      ⟨(hk s rfl).1.last, l, hl, ho _, fun _ => (hk s rfl).2.symm⟩

/-- **C21** for arbitrary XML and a handler that never throws: if `parse` returns, the calls follow
the complete protocol, or there was no object at all and only `final` has been called. -/
theorem xml_protocol_complete (ft : FileType) (h : Stops) (hh : ∀ l, h l = false) (inp : XInput)
    (calls : List Cb) (hr : xmlParse ft h inp = (calls, .returned)) :
    calls = [.final] ∨ Follows calls := by
  obtain ⟨l, hl, ho, hk⟩ := xmlRun_inv (XCtl.init ft) (xInv_init ft) inp.events
  unfold xmlParse at hr
  rcases hx : xmlRun (XCtl.init ft) inp.events with ⟨ops, r⟩
  rw [hx] at ho hk hr
  cases r with
  | error e =>
    simp only at hr
    rw [no_stop _ _ h hh] at hr
    cases hr
  | ok s =>
    exact frame_protocol_complete h hh ⟨(Regs.init.run ops).2, inp.error⟩ s.info s.last
      ⟨(hk s rfl).1.last, l, hl, ho _, fun _ => (hk s rfl).2.symm⟩ calls hr

/-! ### C27: documents of the usual shape -/

/-- All texts of coordinates in the document can be converted: they are finite and the coordinate
fits into 32 bits. -/
def CoordsOk (evs : List XEv) : Prop :=
  ∀ n as, XEv.start n as ∈ evs → ∀ a ∈ as, isCoordinate a.1 → ∃ x, textToFix a.2 = some x

/-- The failure is an exception, or (if there is text the conversion of which is undefined)
undefined behaviour. -/
def FineFail (evs : List XEv) (e : Fail) : Prop := e ≠ .assertion ∧ (CoordsOk evs → e ≠ .ub)

theorem CoordsOk.sub {a b : List XEv} (h : CoordsOk b) (hs : ∀ e ∈ a, e ∈ b) : CoordsOk a :=
  fun n as hm => h n as (hs _ hm)

theorem FineFail.mono {a b : List XEv} {e : Fail} (h : FineFail a e) (hs : ∀ e ∈ a, e ∈ b) :
    FineFail b e := ⟨h.1, fun hb => h.2 (hb.sub hs)⟩

theorem initAttrs_fine (t : ObjType) (hn : Bool) (as : XAttrs) (e : Fail)
    (h : (initAttrs t hn as).2 = some e) :
    e ≠ .assertion ∧ ((∀ a ∈ as, isCoordinate a.1 → ∃ x, textToFix a.2 = some x) → e ≠ .ub) := by
  induction as with
  | nil => simp [initAttrs] at h
  | cons a as ih =>
    obtain ⟨k, v⟩ := a
    have rec' : (initAttrs t hn as).2 = some e → e ≠ .assertion ∧
        ((∀ a ∈ (k, v) :: as, isCoordinate a.1 → ∃ x, textToFix a.2 = some x) → e ≠ .ub) := by
      intro h
      exact ⟨(ih h).1, fun hc => (ih h).2 (fun a ha => hc a (List.mem_cons_of_mem _ ha))⟩
    have ub : isCoordinate k → textToFix v = none → some Fail.ub = some e → e ≠ .assertion ∧
        ((∀ a ∈ (k, v) :: as, isCoordinate a.1 → ∃ x, textToFix a.2 = some x) → e ≠ .ub) := by
      intro hk hv he
      cases he
      refine ⟨by simp, fun hc => ?_⟩
      obtain ⟨x, hx⟩ := hc (k, v) (by simp) hk
      simp [hv] at hx
    simp only [initAttrs] at h
    split at h
    · rename_i hk
      split at h
      · split at h
        · rename_i hv; exact ub (by simp [isCoordinate, hk]) hv h
        · exact rec' h
      · exact rec' h
    · split at h
      · rename_i hk
        split at h
        · split at h
          · rename_i hv; exact ub (by simp [isCoordinate, hk]) hv h
          · exact rec' h
        · exact rec' h
      · split at h
        · cases h
          rename_i ee _
          cases ee <;> simp [AttrError.fail]
        · exact rec' h

theorem boundsAttrs_fine (as : XAttrs) (mn mx : Position) (h : boundsAttrs mn mx as = none) :
    ¬ ∀ a ∈ as, isCoordinate a.1 → ∃ x, textToFix a.2 = some x := by
  induction as generalizing mn mx with
  | nil => simp [boundsAttrs] at h
  | cons a as ih =>
    obtain ⟨k, v⟩ := a
    intro hc
    have hrec := fun a ha => hc a (List.mem_cons_of_mem (k, v) ha)
    have hv : isCoordinate k → ∃ x, textToFix v = some x := hc (k, v) (by simp)
    simp only [boundsAttrs] at h
    split at h
    · rename_i hk
      obtain ⟨x, hx⟩ := hv (by simp [isCoordinate, hk])
      rw [hx] at h
      exact ih _ _ h hrec
    · split at h
      · rename_i hk
        obtain ⟨x, hx⟩ := hv (by simp [isCoordinate, hk])
        rw [hx] at h
        exact ih _ _ h hrec
      · split at h
        · rename_i hk
          obtain ⟨x, hx⟩ := hv (by simp [isCoordinate, hk])
          rw [hx] at h
          exact ih _ _ h hrec
        · split at h
          · rename_i hk
            obtain ⟨x, hx⟩ := hv (by simp [isCoordinate, hk])
            rw [hx] at h
            exact ih _ _ h hrec
          · exact ih _ _ h hrec

theorem rootAttrs_fine (m : Meta) (as : XAttrs) (e : Fail) (h : rootAttrs m as = .error e) :
    ∃ msg, e = .exn msg := by
  induction as generalizing m with
  | nil => simp [rootAttrs] at h
  | cons a as ih =>
    simp only [rootAttrs] at h
    split at h
    · split at h
      · exact ih _ h
      · cases h; exact ⟨_, rfl⟩
    · split at h <;> exact ih _ h

/-- The contexts of objects. -/
def InObj (s : XCtl) : Prop := s.ctx = .node ∨ s.ctx = .way ∨ s.ctx = .relation

theorem leaf_run (s : XCtl) (h : XInv s) (ho : InObj s) (n : String) (as : XAttrs) :
    (xmlRun s [.start n as, .stop n]).2 = .ok { s with lastCtx := s.ctx } ∨
    ∃ m, (xmlRun s [.start n as, .stop n]).2 = .error (.exn m) := by
  have tag : ∀ t, s.cur = some t → ∃ ops, checkTag s.cur n as = some ops := by
    intro t ht
    unfold checkTag
    rw [ht]
    split <;> exact ⟨_, rfl⟩
  rcases ho with hc | hc | hc
  · obtain ⟨ops, hk⟩ := tag _ (h.node hc).2
    left; simp [xmlRun, xmlStep, startElement, endElement, hc, xinner, hk]
  · obtain ⟨ops, hk⟩ := tag _ (h.way hc).2
    left
    by_cases h1 : n = "nd"
    · simp [xmlRun, xmlStep, startElement, endElement, hc, xinner, h1]
    · simp [xmlRun, xmlStep, startElement, endElement, hc, xinner, h1, hk]
  · obtain ⟨ops, hk⟩ := tag _ (h.relation hc).2
    by_cases h1 : n = "member"
    · have hm : (memberOp s as).2 = none ∨ ∃ m, (memberOp s as).2 = some (.exn m) := by
        unfold memberOp; dsimp only
        split
        · dsimp only; split
          · exact Or.inr ⟨_, rfl⟩
          · exact Or.inl rfl
        · exact Or.inl rfl
      rcases hmo : memberOp s as with ⟨ops', e⟩
      rw [hmo] at hm
      rcases hm with hm | ⟨m, hm⟩
      · simp only at hm; subst hm
        left; simp [xmlRun, xmlStep, startElement, endElement, hc, xinner, h1, hmo]
      · simp only at hm; subst hm
        right; exact ⟨m, by simp [xmlRun, xmlStep, startElement, hc, h1, hmo]⟩
    · left; simp [xmlRun, xmlStep, startElement, endElement, hc, xinner, h1, hk]

theorem run_split (s : XCtl) (a b : List XEv) (r : Except Fail XCtl) :
    (xmlRun s a).2 = r → (xmlRun s (a ++ b)).2 =
      match r with
      | .ok s' => (xmlRun s' b).2
      | .error e => .error e := by
  intro h
  rw [xmlRun_append, h]
  cases r <;> rfl

theorem xInv_run {s s' : XCtl} (h : XInv s) {es : List XEv} (hr : (xmlRun s es).2 = .ok s') : XInv s' := by
  obtain ⟨l, _, _, hk⟩ := xmlRun_inv s h es
  exact (hk s' hr).1

theorem leaves_run (kids : List XEv) (hk : Leaves kids) (s : XCtl) (h : XInv s) (ho : InObj s) :
    (∃ c, (xmlRun s kids).2 = .ok { s with lastCtx := c }) ∨
    ∃ m, (xmlRun s kids).2 = .error (.exn m) := by
  induction hk generalizing s with
  | nil => left; exact ⟨s.lastCtx, rfl⟩
  | cons n as r hr ih =>
    have e : XEv.start n as :: .stop n :: r = [.start n as, .stop n] ++ r := rfl
    rw [e]
    rcases leaf_run s h ho n as with h1 | ⟨m, h1⟩
    · rw [run_split _ _ _ _ h1]
      have hi := xInv_run h h1
      rcases ih { s with lastCtx := s.ctx } hi ho with ⟨c, h2⟩ | ⟨m, h2⟩
      · exact Or.inl ⟨c, h2⟩
      · exact Or.inr ⟨m, h2⟩
    · rw [run_split _ _ _ _ h1]
      exact Or.inr ⟨m, rfl⟩

theorem run_single (s : XCtl) (e : XEv) : (xmlRun s [e]).2 = (xmlStep s e).2 := by
  rw [xmlRun_cons]
  cases (xmlStep s e).2 <;> rfl

theorem startObject_run (s : XCtl) (n : String) (hn : IsObjName n) (as : XAttrs) (hc : s.ctx = .top) :
    (∃ s', (xmlRun s [.start n as]).2 = .ok s' ∧ InObj s') ∨
    ∃ e, (xmlRun s [.start n as]).2 = .error e ∧ FineFail [.start n as] e := by
  have gen : ∀ t c, (c = .node ∨ c = .way ∨ c = .relation) → startElement s n as = startObject s t c as →
      (∃ s', (xmlRun s [.start n as]).2 = .ok s' ∧ InObj s') ∨
      ∃ e, (xmlRun s [.start n as]).2 = .error e ∧ FineFail [.start n as] e := by
    intro t c hcc he
    rw [run_single]
    simp only [xmlStep, he, startObject]
    cases hia : (initAttrs t (s.hasNode || t == .node) as).2 with
    | none => left; exact ⟨_, rfl, hcc⟩
    | some e =>
      right
      obtain ⟨h1, h2⟩ := initAttrs_fine _ _ _ _ hia
      exact ⟨e, rfl, h1, fun hco => h2 (hco n as (by simp))⟩
  rcases hn with rfl | rfl | rfl
  · exact gen .node .node (by simp) (by simp [startElement, hc])
  · exact gen .way .way (by simp) (by simp [startElement, hc])
  · exact gen .relation .relation (by simp) (by simp [startElement, hc])

theorem content_run (evs : List XEv) (hc : Content evs) (s : XCtl) (h : XInv s) (ht : s.ctx = .top) :
    (∃ s', (xmlRun s evs).2 = .ok s' ∧ s'.ctx = .top) ∨
    ∃ e, (xmlRun s evs).2 = .error e ∧ FineFail evs e := by
  induction hc generalizing s with
  | nil => left; exact ⟨s, rfl, ht⟩
  | object n as kids r hn hk hr ih =>
    have e : XEv.start n as :: kids ++ .stop n :: r = [.start n as] ++ (kids ++ ([.stop n] ++ r)) := by simp
    rw [e]
    rcases startObject_run s n hn as ht with ⟨s1, h1, ho⟩ | ⟨f, h1, hf⟩
    · rw [run_split _ _ _ _ h1]
      have hi1 := xInv_run h h1
      rcases leaves_run kids hk s1 hi1 ho with ⟨c, h2⟩ | ⟨m, h2⟩
      · dsimp only
        rw [run_split _ _ _ _ h2]
        have h3 : (xmlRun { s1 with lastCtx := c } [.stop n]).2 =
            .ok { s1 with lastCtx := c, cur := none, ctx := .top } := by
          rcases ho with ho | ho | ho <;> simp [xmlRun, xmlStep, endElement, ho]
        dsimp only
        rw [run_split _ _ _ _ h3]
        have hi3 := xInv_run (xInv_run hi1 h2) h3
        rcases ih _ hi3 rfl with ⟨s', h4, ht'⟩ | ⟨f, h4, hf⟩
        · exact Or.inl ⟨s', h4, ht'⟩
        · exact Or.inr ⟨f, h4, hf.mono (by intro x hx; simp [hx])⟩
      · dsimp only
        rw [run_split _ _ _ _ h2]
        exact Or.inr ⟨_, rfl, by simp, by simp⟩
    · rw [run_split _ _ _ _ h1]
      exact Or.inr ⟨f, rfl, hf.mono (by intro x hx; simp at hx; simp [hx])⟩
  | other n as inner r hn h1 h2 hi hr ihi ihr =>
    have e : XEv.start n as :: inner ++ .stop n :: r = [.start n as] ++ (inner ++ ([.stop n] ++ r)) := by simp
    rw [e]
    simp only [IsObjName, not_or] at hn
    have hs : (∃ s1, (xmlRun s [.start n as]).2 = .ok s1 ∧ s1.ctx = .top) ∨
        ∃ e, (xmlRun s [.start n as]).2 = .error e ∧ FineFail [.start n as] e := by
      by_cases hb : n = "bounds"
      · cases hba : boundsAttrs Position.undef Position.undef as with
        | none =>
          right; refine ⟨.ub, by simp [xmlRun, xmlStep, startElement, ht, hb, hba], by simp, ?_⟩
          intro hco
          exact absurd (hco n as (by simp)) (boundsAttrs_fine _ _ _ hba)
        | some p => left; exact ⟨{ s with info := { s.info with bounds := (s.info.bounds.extend p.1).extend p.2 } },
            by simp [xmlRun, xmlStep, startElement, ht, hb, hba], ht⟩
      · by_cases hd : n = "delete"
        · left; exact ⟨{ s with inDelete := true }, by simp [xmlRun, xmlStep, startElement, ht, hd], ht⟩
        · left; exact ⟨s, by simp [xmlRun, xmlStep, startElement, ht, hd, hb, hn], ht⟩
    rcases hs with ⟨s1, e1, t1⟩ | ⟨f, e1, hf⟩
    · rw [run_split _ _ _ _ e1]
      have hi1 := xInv_run h e1
      dsimp only
      rcases ihi s1 hi1 t1 with ⟨s2, e2, t2⟩ | ⟨f, e2, hf⟩
      · rw [run_split _ _ _ _ e2]
        have hi2 := xInv_run hi1 e2
        dsimp only
        obtain ⟨s3, e3, t3⟩ : ∃ s3, (xmlRun s2 [.stop n]).2 = .ok s3 ∧ s3.ctx = .top := by
          by_cases hd : n = "delete"
          · exact ⟨{ s2 with inDelete := false }, by simp [xmlRun, xmlStep, endElement, t2, hd], t2⟩
          · exact ⟨s2, by simp [xmlRun, xmlStep, endElement, t2, hd, h1, h2], t2⟩
        rw [run_split _ _ _ _ e3]
        have hi3 := xInv_run hi2 e3
        dsimp only
        rcases ihr s3 hi3 t3 with ⟨s', h4, ht'⟩ | ⟨f, h4, hf⟩
        · exact Or.inl ⟨s', h4, ht'⟩
        · exact Or.inr ⟨f, h4, hf.mono (by intro x hx; simp [hx])⟩
      · rw [run_split _ _ _ _ e2]
        exact Or.inr ⟨f, rfl, hf.mono (by intro x hx; simp [hx])⟩
    · rw [run_split _ _ _ _ e1]
      exact Or.inr ⟨f, rfl, hf.mono (by intro x hx; simp at hx; simp [hx])⟩

theorem usual_run (ft : FileType) (evs : List XEv) (hd : UsualDocument evs) :
    (∃ s', (xmlRun (XCtl.init ft) evs).2 = .ok s') ∨
    ∃ e, (xmlRun (XCtl.init ft) evs).2 = .error e ∧ FineFail evs e := by
  obtain ⟨n, as, inner, hc, rfl⟩ := hd
  have e : XEv.start n as :: inner ++ [.stop n] = [.start n as] ++ (inner ++ [.stop n]) := by simp
  rw [e]
  have hs : (∃ s1, (xmlRun (XCtl.init ft) [.start n as]).2 = .ok s1 ∧ s1.ctx = .top) ∨
      ∃ m, (xmlRun (XCtl.init ft) [.start n as]).2 = .error (.exn m) := by
    by_cases ho : n = "osm" ∨ n = "osmChange"
    · cases hra : rootAttrs (XCtl.init ft).info as with
      | error e =>
        obtain ⟨m, rfl⟩ := rootAttrs_fine _ _ _ hra
        right; exact ⟨m, by rw [run_single]; simp only [xmlStep, startElement]; simp [XCtl.init] at hra ⊢; simp [ho, hra]⟩
      | ok m =>
        left; exact ⟨{ XCtl.init ft with info := m, ctx := .top }, by
          rw [run_single]; simp only [xmlStep, startElement]; simp [XCtl.init] at hra ⊢; simp [ho, hra], rfl⟩
    · left; exact ⟨{ XCtl.init ft with ctx := .top }, by
        rw [run_single]; simp only [xmlStep, startElement]; simp [XCtl.init, ho], rfl⟩
  rcases hs with ⟨s1, e1, t1⟩ | ⟨m, e1⟩
  · rw [run_split _ _ _ _ e1]
    have hi1 := xInv_run (xInv_init ft) e1
    dsimp only
    rcases content_run inner hc s1 hi1 t1 with ⟨s2, e2, t2⟩ | ⟨f, e2, hf⟩
    · rw [run_split _ _ _ _ e2]
      dsimp only
      left
      rw [run_single]
      simp only [xmlStep, endElement, t2]
      split
      · exact ⟨_, rfl⟩
      · split <;> exact ⟨_, rfl⟩
    · rw [run_split _ _ _ _ e2]
      exact Or.inr ⟨f, rfl, hf.mono (by intro x hx; simp [hx])⟩
  · rw [run_split _ _ _ _ e1]
    exact Or.inr ⟨_, rfl, by simp, by simp⟩

/-- **C27** (partial: for documents of the usual shape, in which the children of objects have no
children and the root element does not occur again, and in which all coordinates are in range).
Reading such a document either returns or throws an exception; no assertion fails and there is no
undefined behaviour.  For other well-formed documents the claim is false, see
`xml_assertion_reachable`. -/
theorem xml_no_abort_partial (ft : FileType) (h : Stops) (evs : List XEv) (hd : UsualDocument evs)
    (hc : CoordsOk evs) :
    (xmlParse ft h ⟨evs, none⟩).2 = .returned ∨
    ∃ msg, (xmlParse ft h ⟨evs, none⟩).2 = .threw (.exn msg) := by
  have key : ∀ (t : Events) (l : List Cb), (∀ e, t.fail = some e → ∃ msg, e = .exn msg) →
      (parseFrame h t l).2 = .returned ∨ ∃ msg, (parseFrame h t l).2 = .threw (.exn msg) := by
    intro t l ht
    unfold parseFrame
    dsimp only
    split
    · exact Or.inl rfl
    · split
      · rename_i e he
        obtain ⟨m, rfl⟩ := ht e he
        exact Or.inr ⟨m, rfl⟩
      · exact Or.inl rfl
  unfold xmlParse
  rcases hr : xmlRun (XCtl.init ft) evs with ⟨ops, r⟩
  rcases usual_run ft evs hd with ⟨s, h1⟩ | ⟨e, h1, hf⟩
  · rw [hr] at h1; simp only at h1; subst h1
    exact key _ _ (by simp)
  · rw [hr] at h1; simp only at h1; subst h1
    refine key _ _ ?_
    intro e' he'
    simp only [Option.some.injEq] at he'
    subst he'
    have h2 := hf.2 hc
    have h1 := hf.1
    cases e with
    | ub => simp at h2
    | assertion => simp at h1
    | exn m => exact ⟨m, rfl⟩

/-! ### C27: elements with unknown names -/

/-- The states are the same but for the context the reader came from (not used outside of an object
child). -/
def Alike (s t : XCtl) : Prop := t = { s with lastCtx := t.lastCtx }

/-- The same operations, and alike results. -/
def AlikeRes (a b : XRes) : Prop :=
  a.1 = b.1 ∧ ((∃ e, a.2 = .error e ∧ b.2 = .error e) ∨
    ∃ s t, a.2 = .ok s ∧ b.2 = .ok t ∧ Alike s t ∧ s.ctx ≠ .inObject)

theorem Alike.refl (s : XCtl) : Alike s s := by cases s; rfl

theorem Alike.fields {s t : XCtl} (h : Alike s t) : t.ctx = s.ctx ∧ t.cur = s.cur ∧ t.info = s.info ∧
    t.last = s.last ∧ t.hasNode = s.hasNode ∧ t.hasRel = s.hasRel ∧ t.inDelete = s.inDelete := by
  unfold Alike at h
  refine ⟨?_, ?_, ?_, ?_, ?_, ?_, ?_⟩ <;> rw [h]

theorem AlikeRes.seq {s t : XCtl} {a b c d : List XEv} (h : AlikeRes (xmlRun s a) (xmlRun t b))
    (hn : ∀ s' t', (xmlRun s a).2 = .ok s' → (xmlRun t b).2 = .ok t' → Alike s' t' → s'.ctx ≠ .inObject →
      AlikeRes (xmlRun s' c) (xmlRun t' d)) :
    AlikeRes (xmlRun s (a ++ c)) (xmlRun t (b ++ d)) := by
  obtain ⟨h1, h2⟩ := h
  rw [xmlRun_append, xmlRun_append]
  rcases h2 with ⟨e, ha, hb⟩ | ⟨s', t', ha, hb, hal, hx⟩
  · rw [ha, hb]
    exact ⟨h1, Or.inl ⟨e, rfl, rfl⟩⟩
  · obtain ⟨k1, k2⟩ := hn s' t' ha hb hal hx
    rw [ha, hb]
    exact ⟨by simp only [h1, k1], k2⟩

/-- An event outside of object children, in alike states. -/
theorem alike_step (s t : XCtl) (h : Alike s t) (hc : s.ctx ≠ .inObject) (e : XEv)
    (hk : ∀ s', (xmlStep s e).2 = .ok s' → s'.ctx ≠ .inObject) :
    AlikeRes (xmlRun s [e]) (xmlRun t [e]) := by
  have key : (xmlStep s e).1 = (xmlStep t e).1 ∧
      ((∃ f, (xmlStep s e).2 = .error f ∧ (xmlStep t e).2 = .error f) ∨
       ∃ s' t', (xmlStep s e).2 = .ok s' ∧ (xmlStep t e).2 = .ok t' ∧ Alike s' t') := by
    obtain ⟨f1, f2, f3, f4, f5, f6, f7⟩ := h.fields
    have hh := h
    unfold Alike at hh
    cases e with
    | start n as =>
      simp only [xmlStep, startElement, f1, f2, f3, startObject, f4, f5, f6, f7, memberOp]
      rcases hx : s.ctx with _ | _ | _ | _ | _ | _
      · dsimp only
        split
        · split
          · exact ⟨rfl, Or.inl ⟨_, rfl, rfl⟩⟩
          · refine ⟨rfl, Or.inr ⟨_, _, rfl, rfl, ?_⟩⟩
            unfold Alike; rw [hh]
        · refine ⟨rfl, Or.inr ⟨_, _, rfl, rfl, ?_⟩⟩
          unfold Alike; rw [hh]
      · dsimp only
        split
        · generalize initAttrs _ _ as = q
          rcases q with ⟨ops, _ | f⟩
          · refine ⟨rfl, Or.inr ⟨_, _, rfl, rfl, ?_⟩⟩
            unfold Alike; rw [hh]
          · exact ⟨rfl, Or.inl ⟨_, rfl, rfl⟩⟩
        · split
          · generalize initAttrs _ _ as = q
            rcases q with ⟨ops, _ | f⟩
            · refine ⟨rfl, Or.inr ⟨_, _, rfl, rfl, ?_⟩⟩
              unfold Alike; rw [hh]
            · exact ⟨rfl, Or.inl ⟨_, rfl, rfl⟩⟩
          · split
            · generalize initAttrs _ _ as = q
              rcases q with ⟨ops, _ | f⟩
              · refine ⟨rfl, Or.inr ⟨_, _, rfl, rfl, ?_⟩⟩
                unfold Alike; rw [hh]
              · exact ⟨rfl, Or.inl ⟨_, rfl, rfl⟩⟩
            · split
              · split
                · exact ⟨rfl, Or.inl ⟨_, rfl, rfl⟩⟩
                · refine ⟨rfl, Or.inr ⟨_, _, rfl, rfl, ?_⟩⟩
                  unfold Alike; rw [hh]
              · split
                · refine ⟨rfl, Or.inr ⟨_, _, rfl, rfl, ?_⟩⟩
                  unfold Alike; rw [hh]
                · exact ⟨rfl, Or.inr ⟨_, _, rfl, rfl, h⟩⟩
      · dsimp only
        cases checkTag s.cur n as <;> simp only [xinner]
        · exact ⟨trivial, Or.inl ⟨_, rfl, rfl⟩⟩
        · refine ⟨trivial, Or.inr ⟨_, _, rfl, rfl, ?_⟩⟩
          unfold Alike; rw [hh]
      · dsimp only
        split
        · simp only [xinner]
          refine ⟨trivial, Or.inr ⟨_, _, rfl, rfl, ?_⟩⟩
          unfold Alike; rw [hh]
        · cases checkTag s.cur n as <;> simp only [xinner]
          · exact ⟨trivial, Or.inl ⟨_, rfl, rfl⟩⟩
          · refine ⟨trivial, Or.inr ⟨_, _, rfl, rfl, ?_⟩⟩
            unfold Alike; rw [hh]
      · dsimp only
        split
        · split
          · exact ⟨rfl, Or.inl ⟨_, rfl, rfl⟩⟩
          · simp only [xinner]
            refine ⟨trivial, Or.inr ⟨_, _, rfl, rfl, ?_⟩⟩
            unfold Alike; rw [hh]
        · cases checkTag s.cur n as <;> simp only [xinner]
          · exact ⟨trivial, Or.inl ⟨_, rfl, rfl⟩⟩
          · refine ⟨trivial, Or.inr ⟨_, _, rfl, rfl, ?_⟩⟩
            unfold Alike; rw [hh]
      · exact absurd hx hc
    | stop n =>
      simp only [xmlStep, endElement, f1]
      rcases hx : s.ctx with _ | _ | _ | _ | _ | _
      · exact ⟨rfl, Or.inl ⟨_, rfl, rfl⟩⟩
      · dsimp only
        split
        · refine ⟨rfl, Or.inr ⟨_, _, rfl, rfl, ?_⟩⟩
          unfold Alike; rw [hh]
        · split
          · refine ⟨rfl, Or.inr ⟨_, _, rfl, rfl, ?_⟩⟩
            unfold Alike; rw [hh]
          · exact ⟨rfl, Or.inr ⟨_, _, rfl, rfl, h⟩⟩
      · refine ⟨rfl, Or.inr ⟨_, _, rfl, rfl, ?_⟩⟩
        unfold Alike; rw [hh]
      · refine ⟨rfl, Or.inr ⟨_, _, rfl, rfl, ?_⟩⟩
        unfold Alike; rw [hh]
      · refine ⟨rfl, Or.inr ⟨_, _, rfl, rfl, ?_⟩⟩
        unfold Alike; rw [hh]
      · exact absurd hx hc
  obtain ⟨k1, k2⟩ := key
  rw [xmlRun_cons, xmlRun_cons]
  rcases k2 with ⟨f, h1, h2⟩ | ⟨s', t', h1, h2, h3⟩
  · rw [h1, h2]; exact ⟨k1, Or.inl ⟨f, rfl, rfl⟩⟩
  · rw [h1, h2]
    refine ⟨by simp [k1, xmlRun], Or.inr ⟨s', t', rfl, rfl, h3, hk s' h1⟩⟩

theorem Spec.SameKids.leaves {n : String} {a b : List XEv} (h : SameKids n a b) : Leaves a := by
  induction h with
  | nil => exact .nil
  | keep m as a b _ ih => exact .cons m as a ih
  | drop m as a b _ _ ih => exact .cons m as a ih

theorem Spec.SameContent.content {a b : List XEv} (h : SameContent a b) : Content a := by
  induction h with
  | nil => exact .nil
  | object n as k k' r r' hn hk _ ih => exact .object n as k r hn hk.leaves ih
  | keep n as i i' r r' hn h1 h2 _ _ ihi ihr => exact .other n as i r hn h1 h2 ihi ihr
  | drop n as i i' r r' hn _ _ ihi ihr =>
    simp only [KnownTop, not_or] at hn
    exact .other n as i r hn.1 hn.2.2.2.1 hn.2.2.2.2 ihi ihr

/-- The context inside the element of an object. -/
def nameOfCtx : XCtx → String
  | .node => "node"
  | .way => "way"
  | .relation => "relation"
  | _ => ""

theorem alike_leaf (s t : XCtl) (h : Alike s t) (hi : XInv s) (ho : InObj s) (n : String) (as : XAttrs) :
    AlikeRes (xmlRun s [.start n as, .stop n]) (xmlRun t [.start n as, .stop n]) := by
  obtain ⟨f1, f2, f3, f4, f5, f6, f7⟩ := h.fields
  have hh := h
  unfold Alike at hh
  have hm : memberOp t as = memberOp s as := by simp only [memberOp, f2, f6]
  have fin : AlikeRes (xmlRun s [.start n as, .stop n]) (xmlRun t [.start n as, .stop n]) ↔
      (xmlRun s [.start n as, .stop n]).1 = (xmlRun t [.start n as, .stop n]).1 ∧
      ((∃ e, (xmlRun s [.start n as, .stop n]).2 = .error e ∧ (xmlRun t [.start n as, .stop n]).2 = .error e) ∨
       ((xmlRun s [.start n as, .stop n]).2 = .ok { s with lastCtx := s.ctx } ∧
        (xmlRun t [.start n as, .stop n]).2 = .ok { s with lastCtx := s.ctx })) := by
    constructor
    · rintro ⟨h1, h2⟩
      refine ⟨h1, ?_⟩
      rcases h2 with h2 | ⟨s', t', h2, h3, h4, _⟩
      · exact Or.inl h2
      · right
        have e1 : s' = { s with lastCtx := s.ctx } := by
          rcases leaf_run s hi ho n as with h | ⟨m, h⟩ <;> rw [h] at h2 <;> cases h2; rfl
        have hit : XInv t := by
          rw [hh]; exact ⟨hi.last, hi.node, hi.way, hi.relation, fun hx => by
            rcases ho with ho | ho | ho <;> simp [ho] at hx⟩
        have hot : InObj t := by simpa [InObj, f1] using ho
        have e2 : t' = { t with lastCtx := t.ctx } := by
          rcases leaf_run t hit hot n as with h | ⟨m, h⟩ <;> rw [h] at h3 <;> cases h3; rfl
        refine ⟨by rw [h2, e1], ?_⟩
        rw [h3, e2, f1]
        rw [hh]
    · rintro ⟨h1, h2⟩
      refine ⟨h1, ?_⟩
      rcases h2 with h2 | ⟨h2, h3⟩
      · exact Or.inl h2
      · refine Or.inr ⟨_, _, h2, h3, Alike.refl _, ?_⟩
        rcases ho with ho | ho | ho <;> simp [ho]
  rw [fin]
  have hst : ∀ c, ({ s with lastCtx := c } : XCtl) = { t with lastCtx := c } := by
    intro c; rw [hh]
  rcases ho with hc | hc | hc
  · cases hk : checkTag s.cur n as with
    | none => simp [xmlRun, xmlStep, startElement, hc, f1, f2, xinner, hk]
    | some ops =>
      simp only [xmlRun, xmlStep, startElement, endElement, hc, f1, f2, xinner, hk]
      refine ⟨trivial, Or.inr ⟨?_, ?_⟩⟩
      · trivial
      · rw [hh]
  · by_cases h1 : n = "nd"
    · simp only [xmlRun, xmlStep, startElement, endElement, hc, f1, f2, xinner, h1, if_true]
      refine ⟨trivial, Or.inr ⟨?_, ?_⟩⟩
      · trivial
      · rw [hh]
    · cases hk : checkTag s.cur n as with
      | none => simp [xmlRun, xmlStep, startElement, hc, f1, f2, xinner, hk, h1]
      | some ops =>
        simp only [xmlRun, xmlStep, startElement, endElement, hc, f1, f2, xinner, hk, h1, if_false]
        refine ⟨trivial, Or.inr ⟨?_, ?_⟩⟩
        · trivial
        · rw [hh]
  · by_cases h1 : n = "member"
    · rcases hmo : memberOp s as with ⟨ops', e⟩
      rw [hmo] at hm
      cases e with
      | some e => simp [xmlRun, xmlStep, startElement, hc, f1, hm, hmo, h1]
      | none =>
        simp only [xmlRun, xmlStep, startElement, endElement, hc, f1, hm, hmo, xinner, h1, if_true]
        refine ⟨trivial, Or.inr ⟨?_, ?_⟩⟩
        · trivial
        · rw [hh]
    · cases hk : checkTag s.cur n as with
      | none => simp [xmlRun, xmlStep, startElement, hc, f1, f2, xinner, hk, h1]
      | some ops =>
        simp only [xmlRun, xmlStep, startElement, endElement, hc, f1, f2, xinner, hk, h1, if_false]
        refine ⟨trivial, Or.inr ⟨?_, ?_⟩⟩
        · trivial
        · rw [hh]

theorem drop_leaf (s : XCtl) (ho : InObj s) (n : String) (as : XAttrs)
    (hk : ¬ KnownChild (nameOfCtx s.ctx) n) :
    xmlRun s [.start n as, .stop n] = ([], .ok { s with lastCtx := s.ctx }) := by
  simp only [KnownChild, not_or, not_and] at hk
  obtain ⟨h1, h2, h3⟩ := hk
  have ht : checkTag s.cur n as = some [] := by simp [checkTag, h1]
  rcases ho with hc | hc | hc
  · simp [xmlRun, xmlStep, startElement, endElement, hc, xinner, ht]
  · have : n ≠ "nd" := h2 (by simp [nameOfCtx, hc])
    simp [xmlRun, xmlStep, startElement, endElement, hc, xinner, ht, this]
  · have : n ≠ "member" := h3 (by simp [nameOfCtx, hc])
    simp [xmlRun, xmlStep, startElement, endElement, hc, xinner, ht, this]

theorem same_kids (n : String) (a b : List XEv) (h : SameKids n a b) (s t : XCtl) (hal : Alike s t)
    (hi : XInv s) (ho : InObj s) (hn : nameOfCtx s.ctx = n) :
    AlikeRes (xmlRun s a) (xmlRun t b) := by
  induction h generalizing s t with
  | nil =>
    refine ⟨rfl, Or.inr ⟨s, t, rfl, rfl, hal, ?_⟩⟩
    rcases ho with ho | ho | ho <;> simp [ho]
  | keep m as a b _ ih =>
    have e1 : XEv.start m as :: .stop m :: a = [.start m as, .stop m] ++ a := rfl
    have e2 : XEv.start m as :: .stop m :: b = [.start m as, .stop m] ++ b := rfl
    rw [e1, e2]
    refine AlikeRes.seq (alike_leaf s t hal hi ho m as) ?_
    intro s' t' h1 _ h3 _
    have hs : s' = { s with lastCtx := s.ctx } := by
      rcases leaf_run s hi ho m as with h | ⟨m', h⟩ <;> rw [h] at h1 <;> cases h1; rfl
    subst hs
    exact ih _ t' h3 (xInv_run hi h1) ho hn
  | drop m as a b hk _ ih =>
    have e1 : XEv.start m as :: .stop m :: a = [.start m as, .stop m] ++ a := rfl
    rw [e1, xmlRun_append]
    have hd := drop_leaf s ho m as (by rw [hn]; exact hk)
    rw [hd]
    simp only [List.nil_append]
    have hr : (xmlRun s [.start m as, .stop m]).2 = .ok { s with lastCtx := s.ctx } := by rw [hd]
    refine ih _ t ?_ (xInv_run hi hr) ho hn
    unfold Alike at hal ⊢
    exact hal

theorem same_content (a b : List XEv) (h : SameContent a b) (s t : XCtl) (hal : Alike s t)
    (hi : XInv s) (ht : s.ctx = .top) : AlikeRes (xmlRun s a) (xmlRun t b) := by
  have top : ∀ {s : XCtl}, s.ctx = .top → s.ctx ≠ .inObject := by intro s h; simp [h]
  induction h generalizing s t with
  | nil => exact ⟨rfl, Or.inr ⟨s, t, rfl, rfl, hal, top ht⟩⟩
  | object n as k k' r r' hn hk hr ih =>
    have e1 : ∀ k r : List XEv, XEv.start n as :: k ++ .stop n :: r =
      [.start n as] ++ (k ++ ([.stop n] ++ r)) := by simp
    rw [e1, e1]
    have hstart : ∀ s1, (xmlRun s [.start n as]).2 = .ok s1 → InObj s1 ∧ nameOfCtx s1.ctx = n := by
      intro s1 hs1
      rw [run_single] at hs1
      rcases hn with rfl | rfl | rfl <;> simp only [xmlStep, startElement, ht, startObject] at hs1 <;>
        simp at hs1 <;> split at hs1 <;> cases hs1 <;> simp [InObj, nameOfCtx]
    refine AlikeRes.seq (alike_step s t hal (top ht) _ ?_) ?_
    · intro s1 hs1
      rw [← run_single] at hs1
      rcases (hstart s1 hs1).1 with h | h | h <;> simp [h]
    · intro s1 t1 h1 _ hal1 _
      obtain ⟨ho1, hn1⟩ := hstart s1 h1
      have hi1 := xInv_run hi h1
      refine AlikeRes.seq (same_kids n k k' hk s1 t1 hal1 hi1 ho1 hn1) ?_
      intro s2 t2 h2 _ hal2 hx2
      have hi2 := xInv_run hi1 h2
      have ho2 : InObj s2 := by
        rcases leaves_run k hk.leaves s1 hi1 ho1 with ⟨c, h⟩ | ⟨m, h⟩ <;> rw [h] at h2 <;> cases h2
        exact ho1
      have hstop : ∀ s3, (xmlStep s2 (.stop n)).2 = .ok s3 → s3.ctx = .top := by
        intro s3 h3
        rcases ho2 with ho | ho | ho <;> simp [xmlStep, endElement, ho] at h3 <;> rw [← h3]
      refine AlikeRes.seq (alike_step s2 t2 hal2 hx2 _ (fun s3 h3 => top (hstop s3 h3))) ?_
      intro s3 t3 h3 _ hal3 _
      exact ih s3 t3 hal3 (xInv_run hi2 h3) (hstop s3 (by rw [← run_single]; exact h3))
  | keep n as i i' r r' hn h1 h2 hsi hsr ihi ihr =>
    have e1 : ∀ k r : List XEv, XEv.start n as :: k ++ .stop n :: r =
      [.start n as] ++ (k ++ ([.stop n] ++ r)) := by simp
    rw [e1, e1]
    simp only [IsObjName, not_or] at hn
    have hstart : ∀ s1, (xmlStep s (.start n as)).2 = .ok s1 → s1.ctx = .top := by
      intro s1 hs1
      simp only [xmlStep, startElement, ht, hn, if_false] at hs1
      split at hs1
      · split at hs1 <;> cases hs1; rfl
      · split at hs1 <;> cases hs1
        · rfl
        · exact ht
    refine AlikeRes.seq (alike_step s t hal (top ht) _ (fun s1 h1 => top (hstart s1 h1))) ?_
    intro s1 t1 k1 _ hal1 _
    have ht1 := hstart s1 (by rw [← run_single]; exact k1)
    have hi1 := xInv_run hi k1
    refine AlikeRes.seq (ihi s1 t1 hal1 hi1 ht1) ?_
    intro s2 t2 k2 _ hal2 hx2
    have ht2 : s2.ctx = .top := by
      rcases content_run i hsi.content s1 hi1 ht1 with ⟨s', h, h'⟩ | ⟨e, h, _⟩ <;> rw [h] at k2 <;> cases k2
      exact h'
    have hi2 := xInv_run hi1 k2
    have hstop : ∀ s3, (xmlStep s2 (.stop n)).2 = .ok s3 → s3.ctx = .top := by
      intro s3 h3
      simp only [xmlStep, endElement, ht2, h1, h2, or_self, if_false] at h3
      split at h3 <;> cases h3
      · rfl
      · exact ht2
    refine AlikeRes.seq (alike_step s2 t2 hal2 hx2 _ (fun s3 h3 => top (hstop s3 h3))) ?_
    intro s3 t3 h3 _ hal3 _
    exact ihr s3 t3 hal3 (xInv_run hi2 h3) (hstop s3 (by rw [← run_single]; exact h3))
  | drop n as i i' r r' hn hsi hsr ihi ihr =>
    have e1 : ∀ k r : List XEv, XEv.start n as :: k ++ .stop n :: r =
      [.start n as] ++ ((k ++ [.stop n]) ++ r) := by simp
    rw [e1, xmlRun_append]
    simp only [KnownTop, IsObjName, not_or] at hn
    obtain ⟨⟨n1, n2, n3⟩, n4, n5, n6, n7⟩ := hn
    have hs : xmlRun s [.start n as] = ([], .ok s) := by
      simp [xmlRun, xmlStep, startElement, ht, n1, n2, n3, n4, n5]
    rw [hs]
    simp only [List.nil_append]
    refine AlikeRes.seq ?_ ?_
    · obtain ⟨k1, k2⟩ := ihi s t hal hi ht
      rw [xmlRun_append]
      rcases k2 with ⟨e, h1, h2⟩ | ⟨s', t', h1, h2, h3, h4⟩
      · rw [h1]; exact ⟨k1, Or.inl ⟨e, rfl, h2⟩⟩
      · have ht2 : s'.ctx = .top := by
          rcases content_run i hsi.content s hi ht with ⟨s2, h, h'⟩ | ⟨e, h, _⟩ <;> rw [h] at h1 <;> cases h1
          exact h'
        have hst : xmlRun s' [.stop n] = ([], .ok s') := by
          simp [xmlRun, xmlStep, endElement, ht2, n5, n6, n7]
        rw [h1]
        simp only [hst, List.append_nil]
        exact ⟨k1, Or.inr ⟨s', t', rfl, h2, h3, h4⟩⟩
    · intro s2 t2 k1 _ hal2 _
      have ht2 : s2.ctx = .top := by
        have := run_split s i [.stop n] _ rfl
        rw [k1] at this
        rcases content_run i hsi.content s hi ht with ⟨s', h, h'⟩ | ⟨e, h, _⟩
        · rw [h] at this
          dsimp only at this
          rw [run_single] at this
          simp only [xmlStep, endElement, h', n5, n6, n7, or_self, if_false] at this
          cases this; exact h'
        · rw [h] at this; cases this
      exact ihr s2 t2 hal2 (xInv_run hi k1) ht2

/-- **C27**, second part.  Elements with unknown names make no difference: two documents that differ
in them only lead to the same calls and the same outcome, for every handler.  (The children of an
unknown element between objects are read as if they were not inside of it.) -/
theorem xml_unknown_ignored (ft : FileType) (h : Stops) (a b : List XEv) (hs : SameButUnknown a b) :
    xmlParse ft h ⟨a, none⟩ = xmlParse ft h ⟨b, none⟩ := by
  obtain ⟨n, as, i, i', hc, rfl, rfl⟩ := hs
  have e1 : ∀ k : List XEv, XEv.start n as :: k ++ [.stop n] = [.start n as] ++ (k ++ [.stop n]) := by simp
  have key : AlikeRes (xmlRun (XCtl.init ft) (.start n as :: i ++ [.stop n]))
      (xmlRun (XCtl.init ft) (.start n as :: i' ++ [.stop n])) := by
    rw [e1, e1]
    have hroot : (XCtl.init ft).ctx = .root := rfl
    have hstart : ∀ s1, (xmlStep (XCtl.init ft) (.start n as)).2 = .ok s1 → s1.ctx = .top := by
      intro s1 hs1
      simp only [xmlStep, startElement, hroot] at hs1
      split at hs1
      · split at hs1 <;> cases hs1; rfl
      · cases hs1; rfl
    refine AlikeRes.seq (alike_step _ _ (Alike.refl _) (by simp [hroot]) _ (fun s1 h1 => by simp [hstart s1 h1])) ?_
    intro s1 t1 h1 _ hal1 _
    have ht1 := hstart s1 (by rw [← run_single]; exact h1)
    have hi1 := xInv_run (xInv_init ft) h1
    refine AlikeRes.seq (same_content i i' hc s1 t1 hal1 hi1 ht1) ?_
    intro s2 t2 h2 _ hal2 hx2
    refine alike_step s2 t2 hal2 hx2 _ ?_
    have ht2 : s2.ctx = .top := by
      rcases content_run i hc.content s1 hi1 ht1 with ⟨s', h, h'⟩ | ⟨e, h, _⟩ <;> rw [h] at h2 <;> cases h2
      exact h'
    intro s3 h3
    simp only [xmlStep, endElement, ht2] at h3
    split at h3
    · cases h3; simp
    · split at h3 <;> cases h3 <;> simp [ht2]
  obtain ⟨k1, k2⟩ := key
  unfold xmlParse
  dsimp only
  rw [k1]
  rcases k2 with ⟨e, h1, h2⟩ | ⟨s, t, h1, h2, h3, _⟩
  · rw [h1, h2]
  · obtain ⟨_, _, f3, f4, _⟩ := h3.fields
    rw [h1, h2]
    simp only [f3, f4]

end Osmium
