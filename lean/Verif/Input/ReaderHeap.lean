import Verif.Input.HeapProps
import Verif.Xml.MoreProps
/-
C23 for the two readers.
-/
namespace Osmium
open Spec

/-! ### The XML reader -/

/-- No way and no relation has an attribute `lon` or `lat`. (specification, no counterpart in /repo) -/
def Spec.NoStrayCoordinates (evs : List XEv) : Prop :=
  ∀ n as, XEv.start n as ∈ evs → n = "way" ∨ n = "relation" → ∀ a ∈ as, a.1 ≠ "lon" ∧ a.1 ≠ "lat"

/-- The operations keep the object being built. (helper for statements and proofs, no counterpart
in /repo) -/
def Keeping (t : ObjType) (ops : List ROp) : Prop := track (some t) ops = some (some t)

theorem Keeping.append {t : ObjType} {a b : List ROp} (ha : Keeping t a) (hb : Keeping t b) :
    Keeping t (a ++ b) := by
  unfold Keeping at *; rw [track_append, ha]; exact hb

theorem keeping_nil (t : ObjType) : Keeping t [] := rfl

theorem keeping_modObj (t : ObjType) (f : Obj → Obj) : Keeping t (ROp.modObj t f) := by
  cases t <;> rfl

theorem keeping_initAttrs (t : ObjType) (hn : Bool) (as : XAttrs)
    (h : t = .node ∨ ∀ a ∈ as, a.1 ≠ "lon" ∧ a.1 ≠ "lat") : Keeping t (initAttrs t hn as).1 := by
  induction as with
  | nil => exact keeping_nil t
  | cons a as ih =>
    obtain ⟨k, v⟩ := a
    have ih' := ih (h.imp id fun h a ha => h a (List.mem_cons_of_mem _ ha))
    have key : k = "lon" ∨ k = "lat" → t = .node := by
      intro hk
      rcases h with h | h
      · exact h
      · have := h (k, v) (by simp)
        rcases hk with hk | hk
        · exact absurd hk this.1
        · exact absurd hk this.2
    simp only [initAttrs]
    split
    · rename_i hk
      have ht := key (Or.inl hk)
      split
      · split
        · exact keeping_nil t
        · refine Keeping.append ?_ ih'
          subst ht; rfl
      · exact (keeping_nil t).append ih'
    · split
      · rename_i hk
        have ht := key (Or.inr hk)
        split
        · split
          · exact keeping_nil t
          · refine Keeping.append ?_ ih'
            subst ht; rfl
        · exact (keeping_nil t).append ih'
      · split
        · exact keeping_nil t
        · exact (keeping_modObj t _).append ih'

theorem track_emits (a : Option ObjType) (l : List Cb) : track a (l.map ROp.emit) = some a := by
  induction l with
  | nil => rfl
  | cons c l ih => simpa [track, ROp.track] using ih

theorem keeping_checkTag (t : ObjType) (n : String) (as : XAttrs) (ops : List ROp)
    (h : checkTag (some t) n as = some ops) : Keeping t ops := by
  unfold checkTag at h
  split at h
  · cases h; exact keeping_modObj _ _
  · cases h; exact keeping_nil t

theorem xmlStep_track (s : XCtl) (h : XInv s) (e : XEv) (hs : NoStrayCoordinates [e]) :
    ∃ act, track s.cur (xmlStep s e).1 = some act ∧ ∀ s', (xmlStep s e).2 = .ok s' → s'.cur = act := by
  have keep : ∀ ops res, xmlStep s e = (ops, res) → track s.cur ops = some s.cur →
      (∀ s', res = .ok s' → s'.cur = s.cur) →
      ∃ act, track s.cur (xmlStep s e).1 = some act ∧ ∀ s', (xmlStep s e).2 = .ok s' → s'.cur = act := by
    intro ops res he h1 h2
    rw [he]; exact ⟨s.cur, h1, h2⟩
  have nil : track s.cur [] = some s.cur := by cases s.cur <;> rfl
  cases e with
  | start n as =>
    rcases hc : s.ctx with _ | _ | _ | _ | _ | _
    · by_cases ho : n = "osm" ∨ n = "osmChange"
      · cases hra : rootAttrs s.info as with
        | error e => exact keep [] (.error e) (by simp [xmlStep, startElement, hc, ho, hra]) nil (by simp)
        | ok m =>
          refine keep [] (.ok { s with info := m, ctx := .top }) (by simp [xmlStep, startElement, hc, ho, hra]) nil ?_
          intro s' h; cases h; rfl
      · refine keep [] (.ok { s with ctx := .top }) (by simp [xmlStep, startElement, hc, ho]) nil ?_
        intro s' h; cases h; rfl
    · have obj : ∀ (t : ObjType) (c : XCtx), (t = .node ∨ t = .way ∨ t = .relation) →
          (t = .node ∨ ∀ a ∈ as, a.1 ≠ "lon" ∧ a.1 ≠ "lat") →
          startElement s n as = startObject s t c as →
          ∃ act, track s.cur (xmlStep s (.start n as)).1 = some act ∧
            ∀ s', (xmlStep s (.start n as)).2 = .ok s' → s'.cur = act := by
        intro t c ht hco he
        refine ⟨some t, ?_, ?_⟩
        · simp only [xmlStep, he, startObject]
          have hk : Keeping t ((if s.inDelete then ROp.modObj t fun o => { o with visible := false } else []) ++
              (initAttrs t (s.hasNode || t == .node) as).1) := by
            refine Keeping.append ?_ (keeping_initAttrs _ _ _ hco)
            split
            · exact keeping_modObj _ _
            · exact keeping_nil t
          rw [List.append_assoc, List.append_assoc, track_append, track_emits]
          simp only [Option.bind_some, List.cons_append, List.nil_append, track, ROp.track, ht, if_true]
          exact hk
        · intro s' hs'
          simp only [xmlStep, he, startObject] at hs'
          cases hia : (initAttrs t (s.hasNode || t == .node) as).2 with
          | some f => rw [hia] at hs'; cases hs'
          | none => rw [hia] at hs'; cases hs'; rfl
      by_cases h1 : n = "node"
      · exact obj .node .node (by simp) (Or.inl rfl) (by simp [startElement, hc, h1])
      by_cases h2 : n = "way"
      · exact obj .way .way (by simp) (Or.inr (hs n as (by simp) (Or.inl h2))) (by simp [startElement, hc, h2])
      by_cases h3 : n = "relation"
      · exact obj .relation .relation (by simp) (Or.inr (hs n as (by simp) (Or.inr h3))) (by simp [startElement, hc, h3])
      by_cases h4 : n = "bounds"
      · cases hb : boundsAttrs Position.undef Position.undef as with
        | none => exact keep [] (.error .ub) (by simp [xmlStep, startElement, hc, h4, hb]) nil (by simp)
        | some p =>
          refine keep [] (.ok { s with info := { s.info with bounds := (s.info.bounds.extend p.1).extend p.2 } })
            (by simp [xmlStep, startElement, hc, h4, hb]) nil ?_
          intro s' h; cases h; rfl
      by_cases h5 : n = "delete"
      · refine keep [] (.ok { s with inDelete := true }) (by simp [xmlStep, startElement, hc, h5]) nil ?_
        intro s' h; cases h; rfl
      · refine keep [] (.ok s) (by simp [xmlStep, startElement, hc, h1, h2, h3, h4, h5]) nil ?_
        intro s' h; cases h; rfl
    · have hcur := (h.node hc).2
      cases hk : checkTag s.cur n as with
      | none => exact keep [] (.error .ub) (by simp [xmlStep, startElement, hc, hk, xinner]) nil (by simp)
      | some ops =>
        refine keep ops (.ok { s with lastCtx := .node, ctx := .inObject })
          (by simp [xmlStep, startElement, hc, hk, xinner]) ?_ (by intro s' h; cases h; rfl)
        rw [hcur] at hk ⊢; exact keeping_checkTag _ _ _ _ hk
    · have hcur := (h.way hc).2
      by_cases h1 : n = "nd"
      · refine keep ((as.filter fun a => decide (a.1 = "ref")).map fun a =>
            .modWay fun w => { w with nodes := w.nodes ++ [{ ref := strToId a.2 }] })
          (.ok { s with lastCtx := .way, ctx := .inObject })
          (by simp only [xmlStep, startElement, hc, h1, xinner, if_true]) ?_ (by intro s' h; cases h; rfl)
        rw [hcur]
        generalize as.filter _ = l
        induction l with
        | nil => rfl
        | cons a l ih => simpa [track, ROp.track] using ih
      · cases hk : checkTag s.cur n as with
        | none => exact keep [] (.error .ub) (by simp [xmlStep, startElement, hc, hk, xinner, h1]) nil (by simp)
        | some ops =>
          refine keep ops (.ok { s with lastCtx := .way, ctx := .inObject })
            (by simp [xmlStep, startElement, hc, hk, xinner, h1]) ?_ (by intro s' h; cases h; rfl)
          rw [hcur] at hk ⊢; exact keeping_checkTag _ _ _ _ hk
    · have hcur := (h.relation hc).2
      by_cases h1 : n = "member"
      · have hm : track s.cur (memberOp s as).1 = some s.cur := by
          rw [hcur]
          unfold memberOp; dsimp only; split <;> rfl
        rcases hmo : memberOp s as with ⟨ops, e⟩
        rw [hmo] at hm
        cases e with
        | some e => exact keep ops (.error e) (by simp [xmlStep, startElement, hc, h1, hmo]) hm (by simp)
        | none =>
          exact keep ops (.ok { s with lastCtx := .relation, ctx := .inObject })
            (by simp [xmlStep, startElement, hc, h1, hmo, xinner]) hm (by intro s' h; cases h; rfl)
      · cases hk : checkTag s.cur n as with
        | none => exact keep [] (.error .ub) (by simp [xmlStep, startElement, hc, hk, xinner, h1]) nil (by simp)
        | some ops =>
          refine keep ops (.ok { s with lastCtx := .relation, ctx := .inObject })
            (by simp [xmlStep, startElement, hc, hk, xinner, h1]) ?_ (by intro s' h; cases h; rfl)
          rw [hcur] at hk ⊢; exact keeping_checkTag _ _ _ _ hk
    · exact keep [] (.error .assertion) (by simp [xmlStep, startElement, hc]) nil (by simp)
  | stop n =>
    rcases hc : s.ctx with _ | _ | _ | _ | _ | _
    · exact keep [] (.error .assertion) (by simp [xmlStep, endElement, hc]) nil (by simp)
    · by_cases ho : n = "osm" ∨ n = "osmChange"
      · refine keep [] (.ok { s with ctx := .root }) (by simp [xmlStep, endElement, hc, ho]) nil ?_
        intro s' h; cases h; rfl
      by_cases hd : n = "delete"
      · refine keep [] (.ok { s with inDelete := false }) (by simp [xmlStep, endElement, hc, hd]) nil ?_
        intro s' h; cases h; rfl
      · refine keep [] (.ok s) (by simp [xmlStep, endElement, hc, ho, hd]) nil ?_
        intro s' h; cases h; rfl
    · have hcur := (h.node hc).2
      refine ⟨none, by simp [xmlStep, endElement, hc, track, ROp.track, hcur], ?_⟩
      intro s' h; simp [xmlStep, endElement, hc] at h; rw [← h]
    · have hcur := (h.way hc).2
      refine ⟨none, by simp [xmlStep, endElement, hc, track, ROp.track, hcur], ?_⟩
      intro s' h; simp [xmlStep, endElement, hc] at h; rw [← h]
    · have hcur := (h.relation hc).2
      refine ⟨none, by simp [xmlStep, endElement, hc, track, ROp.track, hcur], ?_⟩
      intro s' h; simp [xmlStep, endElement, hc] at h; rw [← h]
    · refine keep [] (.ok { s with ctx := s.lastCtx }) (by simp [xmlStep, endElement, hc]) nil ?_
      intro s' h; cases h; rfl

theorem xmlRun_track (s : XCtl) (h : XInv s) (es : List XEv) (hs : NoStrayCoordinates es) :
    ∃ act, track s.cur (xmlRun s es).1 = some act := by
  induction es generalizing s with
  | nil => exact ⟨s.cur, by simp [xmlRun, track]⟩
  | cons e es ih =>
    obtain ⟨a1, t1, k1⟩ := xmlStep_track s h e (fun n as hm => hs n as (by simp at hm; simp [hm]))
    rw [xmlRun_cons]
    cases hr : (xmlStep s e).2 with
    | error f => exact ⟨a1, t1⟩
    | ok s1 =>
      have hi : XInv s1 := by
        obtain ⟨_, _, _, hk⟩ := xmlStep_inv s h e
        exact (hk s1 hr).1
      obtain ⟨a2, t2⟩ := ih s1 hi (fun n as hm => hs n as (List.mem_cons_of_mem _ hm))
      refine ⟨a2, ?_⟩
      simp only [track_append, t1, Option.bind_some]
      rw [← k1 s1 hr]; exact t2

/-- **C23** for the XML reader (partial: not for documents with a `lon` or `lat` attribute on a way or
relation, for which it is false, see `xml_kept_node_modified`).  For any document (well-formed or
not) and any handler that keeps and drops pointers as it likes: the reader's calls do not depend on
which pointers are kept; and after each callback with an object, this object is not modified as long
as the handler holds the pointer. -/
theorem xml_kept_unchanged_partial (k : Keeps) (ft : FileType) (evs : List XEv)
    (hs : NoStrayCoordinates evs) :
    let ops := (xmlRun (XCtl.init ft) evs).1
    (Heap.run k (Heap.init, []) ops).2 = (Regs.init.run ops).2 ∧
    ∀ before t after, ops = before ++ .call t :: after →
      ∃ a v, (Heap.run k (Heap.init, []) before).1.reg t = some a ∧
        (Heap.run k (Heap.init, []) (before ++ [.call t])).2 =
          (Heap.run k (Heap.init, []) before).2 ++ [.obj v] ∧
        ∀ mid, mid <+: after →
          HeldThroughout k (Heap.run k (Heap.init, []) (before ++ [.call t])) mid a →
          (Heap.run k (Heap.init, []) (before ++ [.call t] ++ mid)).1.cells a = v := by
  obtain ⟨act, ht⟩ := xmlRun_track (XCtl.init ft) (xInv_init ft) evs hs
  have ht' : track none (xmlRun (XCtl.init ft) evs).1 = some act := ht
  refine ⟨shared_calls k _ act ht', ?_⟩
  intro before t after he
  rw [he] at ht'
  exact shared_unchanged k before after t act ht'

/-- Hypotheses met, by a document with a node that is kept. -/
example : NoStrayCoordinates xdemoDoc := by
  intro n as hm hn a ha
  simp only [xdemoDoc, List.mem_cons, List.not_mem_nil, or_false, XEv.start.injEq, reduceCtorEq, false_or] at hm
  rcases hm with ⟨rfl, rfl⟩ | ⟨rfl, rfl⟩ | ⟨rfl, rfl⟩ | ⟨rfl, rfl⟩ | ⟨rfl, rfl⟩ | ⟨rfl, rfl⟩ | ⟨rfl, rfl⟩ <;>
    simp at hn ha <;> simp [ha]

/-- **C23 is false as stated**: a way with an attribute `lon` changes the longitude of the last node,
although the handler has kept the node. -/
theorem xml_kept_node_modified :
    ∃ evs, IsDocument evs ∧
      evs = [.start "osm" [], .start "node" [("id", "1"), ("lon", "2"), ("lat", "2")], .stop "node",
        .start "way" [("id", "1"), ("lon", "7")], .stop "way", .stop "osm"] ∧
      (let ops := (xmlRun (XCtl.init .osm) evs).1
       let s := Heap.run (fun _ _ => true) (Heap.init, []) ops
       -- the handler still holds the first object it got
       0 ∈ s.1.held ∧
       objects s.2 =
        [.node { Node.new with obj := { Obj.new with id := 1 }, position := ⟨20000000, 20000000⟩ },
         .way { Way.new with obj := { Obj.new with id := 1 } }] ∧
       -- but it has changed
       s.1.cells 0 =
        .node { Node.new with obj := { Obj.new with id := 1 }, position := ⟨70000000, 20000000⟩ }) := by
  refine ⟨_, ?_, rfl, ?_⟩
  · show nest _ _ = _; decide
  · decide +kernel

/-! ### The PBF reader -/

/-- input/pbf.hpp:190-215, 228-256, 269-309, 332-375: the operations of the PBF reader for the calls
it makes.  Each object is prepared at the beginning of the loop body, then its setters are called (one
modification here, that of all attributes), then it is passed to the handler.  Simplification: an
object on which the reader throws before the callback is left out. -/
def pbfOps (calls : List Cb) : List ROp :=
  calls.flatMap fun
    | .obj (.node n) => [.prepare .node, .modNode fun _ => n, .call .node]
    | .obj (.way w) => [.prepare .way, .modWay fun _ => w, .call .way]
    | .obj (.relation r) => [.prepare .relation, .modRel fun _ => r, .call .relation]
    | c => [.emit c]

theorem pbfOps_track (calls : List Cb) : track none (pbfOps calls) = some none := by
  induction calls with
  | nil => rfl
  | cons c calls ih =>
    unfold pbfOps at ih ⊢
    rw [List.flatMap_cons, track_append]
    have : track none (match c with
      | .obj (.node n) => [ROp.prepare .node, .modNode fun _ => n, .call .node]
      | .obj (.way w) => [.prepare .way, .modWay fun _ => w, .call .way]
      | .obj (.relation r) => [.prepare .relation, .modRel fun _ => r, .call .relation]
      | c => [.emit c]) = some none := by
      split <;> rfl
    rw [this]
    exact ih

theorem pbfOps_calls (calls : List Cb) (r : Regs) : (r.run (pbfOps calls)).2 = calls := by
  induction calls generalizing r with
  | nil => rfl
  | cons c calls ih =>
    have e : pbfOps (c :: calls) = pbfOps [c] ++ pbfOps calls := by simp [pbfOps]
    rw [e, Regs.run_append]
    simp only [ih]
    have : (r.run (pbfOps [c])).2 = [c] := by
      cases c with
      | obj o => cases o <;> rfl
      | _ => rfl
    rw [this]; rfl

/-- **C23** for the PBF reader: whatever bytes are read and whatever pointers the handler keeps, it
sees the calls of `pbfParse`, and after each callback with an object, this object is not modified as
long as the handler holds the pointer. -/
theorem pbf_kept_unchanged (k : Keeps) (c : PbfCodec) (ft : FileType) (h : Stops) (s : Input) :
    let ops := pbfOps (pbfParse c ft h s).1
    (Heap.run k (Heap.init, []) ops).2 = (pbfParse c ft h s).1 ∧
    ∀ before t after, ops = before ++ .call t :: after →
      ∃ a v, (Heap.run k (Heap.init, []) before).1.reg t = some a ∧
        (Heap.run k (Heap.init, []) (before ++ [.call t])).2 =
          (Heap.run k (Heap.init, []) before).2 ++ [.obj v] ∧
        ∀ mid, mid <+: after →
          HeldThroughout k (Heap.run k (Heap.init, []) (before ++ [.call t])) mid a →
          (Heap.run k (Heap.init, []) (before ++ [.call t] ++ mid)).1.cells a = v := by
  have ht := pbfOps_track (pbfParse c ft h s).1
  refine ⟨?_, ?_⟩
  · rw [shared_calls k _ none ht, pbfOps_calls]
  · intro before t after he
    rw [he] at ht
    exact shared_unchanged k before after t none ht

/-- A handler that keeps every second pointer: the second node is built in the place of the first,
which is not kept; the third needs a new place. -/
example :
    let n := fun i : Int => Cb.obj (.node { Node.new with obj := { Obj.new with id := i } })
    let s := Heap.run (fun l a => a == 0 && decide (l.length > 1)) (Heap.init, []) (pbfOps [n 1, n 2, n 3])
    s.1.held = [0] ∧ s.1.cells 0 = .node { Node.new with obj := { Obj.new with id := 2 } } ∧
      s.1.node = some 1 := by
  decide +kernel

end Osmium
