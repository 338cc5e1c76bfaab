import Verif.Handler.Chain
import Verif.Osm.Props
import Verif.Input.Props
import Verif.Pbf.Spec

/-
C39: the handler FindBbox, handler/find_bbox.hpp.
-/
namespace Osmium
open Spec

/-- handler/find_bbox.hpp 36-58: `node` 45-47 extends the bounds, `after_nodes` 49-51 throws. -/
def findBbox : HandlerM Bounds where
  step b c :=
    match c with
    | .obj (.node n) => (b.extend n.position, c, false)
    | .after .node => (b, c, true)
    | c => (b, c, false)

/-- A reader with a handler (input/pbf.hpp 89-150, input/xml.hpp 69-111, see `parseFrame`): the
calls are made until one throws `StopReading`; then `final` is called in any case. -/
def readWith {σ : Type} (h : HandlerM σ) (s : σ) (calls : List Cb) : σ :=
  (h.step (h.run s calls).1 .final).1

namespace Spec

/-- The positions of the nodes before the first end of a node block. (specification, no counterpart in /repo) -/
def nodesBeforeEnd : List Cb → List Position
  | [] => []
  | .after .node :: _ => []
  | .obj (.node n) :: cs => n.position :: nodesBeforeEnd cs
  | _ :: cs => nodesBeforeEnd cs

/-- The positions of all nodes. (specification, no counterpart in /repo) -/
def nodePositions (os : List OsmObj) : List Position :=
  os.filterMap fun | .node n => some n.position | _ => none

end Spec

theorem findBbox_run (b : Bounds) (calls : List Cb) :
    (findBbox.run b calls).1 = b.extendAll (nodesBeforeEnd calls) := by
  induction calls generalizing b with
  | nil => rfl
  | cons c cs ih =>
    match c with
    | .obj (.node n) =>
      simp only [HandlerM.run, findBbox, Bool.false_eq_true, if_false, nodesBeforeEnd] at ih ⊢
      rw [ih]; rfl
    | .after .node => rfl
    | .after .way => simp only [HandlerM.run, findBbox, Bool.false_eq_true, if_false, nodesBeforeEnd] at ih ⊢; rw [ih]
    | .after .relation => simp only [HandlerM.run, findBbox, Bool.false_eq_true, if_false, nodesBeforeEnd] at ih ⊢; rw [ih]
    | .after .area => simp only [HandlerM.run, findBbox, Bool.false_eq_true, if_false, nodesBeforeEnd] at ih ⊢; rw [ih]
    | .after .unknown => simp only [HandlerM.run, findBbox, Bool.false_eq_true, if_false, nodesBeforeEnd] at ih ⊢; rw [ih]
    | .before t => simp only [HandlerM.run, findBbox, Bool.false_eq_true, if_false, nodesBeforeEnd] at ih ⊢; rw [ih]
    | .init m => simp only [HandlerM.run, findBbox, Bool.false_eq_true, if_false, nodesBeforeEnd] at ih ⊢; rw [ih]
    | .final => simp only [HandlerM.run, findBbox, Bool.false_eq_true, if_false, nodesBeforeEnd] at ih ⊢; rw [ih]
    | .obj (.way w) => simp only [HandlerM.run, findBbox, Bool.false_eq_true, if_false, nodesBeforeEnd] at ih ⊢; rw [ih]
    | .obj (.relation r) => simp only [HandlerM.run, findBbox, Bool.false_eq_true, if_false, nodesBeforeEnd] at ih ⊢; rw [ih]

theorem findBbox_read (calls : List Cb) :
    readWith findBbox Bounds.empty calls = Bounds.empty.extendAll (nodesBeforeEnd calls) := by
  unfold readWith
  rw [← findBbox_run]; rfl

/-- **C39.**  After reading with the handler, for any sequence of callbacks with at least one node
before the first end of a node block, all of them with defined positions: the bounds are the
smallest and largest coordinates of these nodes. -/
theorem findBbox_hull (calls : List Cb) (hne : nodesBeforeEnd calls ≠ [])
    (hd : ∀ p ∈ nodesBeforeEnd calls, p.defined = true) :
    let b := readWith findBbox Bounds.empty calls
    b.defined = true ∧
    IsMinOf Position.x (nodesBeforeEnd calls) b.bottomLeft.x ∧
    IsMinOf Position.y (nodesBeforeEnd calls) b.bottomLeft.y ∧
    IsMaxOf Position.x (nodesBeforeEnd calls) b.topRight.x ∧
    IsMaxOf Position.y (nodesBeforeEnd calls) b.topRight.y := by
  intro b
  simp only [b, findBbox_read]
  exact bounds_extend_hull _ hne hd

/-- Without nodes the bounds stay undefined. -/
theorem findBbox_no_nodes (calls : List Cb) (h : nodesBeforeEnd calls = []) :
    readWith findBbox Bounds.empty calls = Bounds.empty := by
  rw [findBbox_read, h]; rfl

/-- **C39.**  Reading stops: whatever follows the first end of a node block is not delivered. -/
theorem findBbox_stops (b : Bounds) (cs rest : List Cb) (h : Cb.after .node ∉ cs) :
    ∃ b', findBbox.run b (cs ++ .after .node :: rest) = (b', cs ++ [.after .node], true) := by
  induction cs generalizing b with
  | nil => exact ⟨b, rfl⟩
  | cons c cs ih =>
    have hc : c ≠ .after .node := fun e => h (by simp [e])
    have hcs : Cb.after .node ∉ cs := fun e => h (by simp [e])
    have hstep : ∃ b', findBbox.step b c = (b', c, false) := by
      match c, hc with
      | .obj (.node n), _ => exact ⟨_, rfl⟩
      | .obj (.way w), _ => exact ⟨_, rfl⟩
      | .obj (.relation r), _ => exact ⟨_, rfl⟩
      | .init m, _ => exact ⟨_, rfl⟩
      | .before t, _ => exact ⟨_, rfl⟩
      | .final, _ => exact ⟨_, rfl⟩
      | .after .way, _ => exact ⟨_, rfl⟩
      | .after .relation, _ => exact ⟨_, rfl⟩
      | .after .area, _ => exact ⟨_, rfl⟩
      | .after .unknown, _ => exact ⟨_, rfl⟩
      | .after .node, hc => exact absurd rfl hc
    obtain ⟨b', hb⟩ := hstep
    obtain ⟨b'', hb'⟩ := ih b' hcs
    refine ⟨b'', ?_⟩
    simp only [List.cons_append, HandlerM.run, hb, Bool.false_eq_true, if_false, hb']

/-- In a file that begins with its nodes, all nodes are before the first end of a node block. -/
theorem nodesBeforeEnd_protocol (m : Meta) (ns rest : List OsmObj)
    (hn : ∀ o ∈ ns, o.type = .node) (hr : ∀ o ∈ rest, o.type ≠ .node) :
    nodesBeforeEnd (protocol m (ns ++ rest)) = nodePositions (ns ++ rest) := by
  have hobj : ∀ (r : List OsmObj) (cs : List Cb), (∀ o ∈ r, o.type ≠ .node) →
      nodesBeforeEnd (r.map Cb.obj ++ cs) = nodesBeforeEnd cs := by
    intro r cs hr
    induction r with
    | nil => rfl
    | cons o r ih =>
      have ho := hr o (by simp)
      have := ih (fun x hx => hr x (by simp [hx]))
      cases o with
      | node n => exact absurd rfl ho
      | way w => simpa [nodesBeforeEnd] using this
      | relation w => simpa [nodesBeforeEnd] using this
  have hnob : ∀ (r : List OsmObj) (cs : List Cb), (∀ o ∈ r, o.type = .node) →
      nodesBeforeEnd (r.map Cb.obj ++ cs) = nodePositions r ++ nodesBeforeEnd cs := by
    intro r cs hr
    induction r with
    | nil => rfl
    | cons o r ih =>
      have ho := hr o (by simp)
      have := ih (fun x hx => hr x (by simp [hx]))
      cases o with
      | node n =>
        simp only [List.map_cons, List.cons_append, nodesBeforeEnd, this, nodePositions,
          List.filterMap_cons]
      | way w => simp [OsmObj.type] at ho
      | relation w => simp [OsmObj.type] at ho
  have hnone : ∀ l : List OsmObj, (∀ o ∈ l, o.type ≠ .node) → nodePositions l = [] := by
    intro l hl
    induction l with
    | nil => rfl
    | cons o l ih =>
      have ho := hl o (by simp)
      cases o with
      | node n => exact absurd rfl ho
      | _ => simp only [nodePositions, List.filterMap_cons] at ih ⊢
             exact ih (fun x hx => hl x (by simp [hx]))
  have hrest : ∀ (rs : List (List OsmObj)) (cs : List Cb), (∀ r ∈ rs, ∀ o ∈ r, o.type ≠ .node) →
      nodesBeforeEnd (rs.flatMap runCalls ++ cs) = nodesBeforeEnd cs := by
    intro rs cs h
    induction rs with
    | nil => rfl
    | cons r rs ih =>
      have ih := ih (fun r hr => h r (by simp [hr]))
      simp only [List.flatMap_cons, List.append_assoc]
      cases r with
      | nil => simpa [runCalls] using ih
      | cons o r =>
        have hh := h (o :: r) (by simp)
        have ho := hh o (by simp)
        simp only [runCalls, List.cons_append, List.append_assoc, nodesBeforeEnd]
        rw [hobj _ _ hh]
        cases o with
        | node n => exact absurd rfl ho
        | _ => simpa [OsmObj.type, nodesBeforeEnd] using ih
  cases ns with
  | nil =>
    simp only [List.nil_append, protocol, List.cons_append, nodesBeforeEnd]
    rw [hrest _ _ (fun r hr' o ho => hr o (by
      rw [← runs_flatten rest]; exact List.mem_flatten_of_mem hr' ho)), hnone rest hr]
    rfl
  | cons n ns =>
    have hsplit : ∀ (ns : List OsmObj) (n : OsmObj), (∀ o ∈ n :: ns, o.type = .node) →
        runs (n :: ns ++ rest) = (n :: ns) :: runs rest := by
      intro ns
      induction ns with
      | nil =>
        intro n hn
        simp only [List.cons_append, List.nil_append]
        cases rest with
        | nil => rfl
        | cons x rest =>
          obtain ⟨r, rs, e⟩ := runs_cons_ne x rest
          rw [runs, e]
          have hx : ¬ n.type = x.type := by
            rw [hn n (by simp)]; exact fun h => hr x (by simp) h.symm
          simp [hx]
      | cons a ns ih =>
        intro n hn
        have := ih a (fun o ho => hn o (by simp at ho ⊢; tauto))
        simp only [List.cons_append] at this ⊢
        rw [runs, this]
        have : n.type = a.type := by rw [hn n (by simp), hn a (by simp)]
        simp [this]
    unfold protocol
    rw [hsplit ns n hn]
    have hnt : n.type = .node := hn n (by simp)
    simp only [List.flatMap_cons, runCalls, List.cons_append, List.append_assoc, nodesBeforeEnd]
    rw [hnob _ _ hn, hnt]
    simp only [List.cons_append, nodesBeforeEnd, List.append_nil]
    simp only [nodePositions, ← List.cons_append, List.filterMap_append]
    have := hnone rest hr
    simp only [nodePositions] at this
    rw [this]; simp

/-- **C39.**  For every file that begins with its nodes (at least one, all with defined
positions) the bounds found are the bounding box of all nodes of the file. -/
theorem findBbox_file (m : Meta) (ns rest : List OsmObj) (hne : ns ≠ [])
    (hn : ∀ o ∈ ns, o.type = .node) (hr : ∀ o ∈ rest, o.type ≠ .node)
    (hd : ∀ p ∈ nodePositions (ns ++ rest), p.defined = true) :
    let b := readWith findBbox Bounds.empty (protocol m (ns ++ rest)).dropLast
    b.defined = true ∧
    IsMinOf Position.x (nodePositions (ns ++ rest)) b.bottomLeft.x ∧
    IsMinOf Position.y (nodePositions (ns ++ rest)) b.bottomLeft.y ∧
    IsMaxOf Position.x (nodePositions (ns ++ rest)) b.topRight.x ∧
    IsMaxOf Position.y (nodePositions (ns ++ rest)) b.topRight.y := by
  intro b
  have e : nodesBeforeEnd (protocol m (ns ++ rest)).dropLast = nodePositions (ns ++ rest) := by
    rw [← nodesBeforeEnd_protocol m ns rest hn hr]
    have : ∀ cs : List Cb, nodesBeforeEnd (cs ++ [.final]) = nodesBeforeEnd cs := by
      intro cs
      induction cs with
      | nil => rfl
      | cons c cs ih =>
        match c with
        | .obj (.node n) => simpa [nodesBeforeEnd] using ih
        | .after .node => rfl
        | .after .way => simpa [nodesBeforeEnd] using ih
        | .after .relation => simpa [nodesBeforeEnd] using ih
        | .after .area => simpa [nodesBeforeEnd] using ih
        | .after .unknown => simpa [nodesBeforeEnd] using ih
        | .before t => simpa [nodesBeforeEnd] using ih
        | .init m => simpa [nodesBeforeEnd] using ih
        | .final => simpa [nodesBeforeEnd] using ih
        | .obj (.way w) => simpa [nodesBeforeEnd] using ih
        | .obj (.relation r) => simpa [nodesBeforeEnd] using ih
    unfold protocol
    rw [List.dropLast_concat, this]
  have hne' : nodesBeforeEnd (protocol m (ns ++ rest)).dropLast ≠ [] := by
    rw [e]
    cases ns with
    | nil => exact absurd rfl hne
    | cons o ns =>
      have := hn o (by simp)
      cases o with
      | node n => simp [nodePositions]
      | _ => simp [OsmObj.type] at this
  have := findBbox_hull _ hne' (by rw [e]; exact hd)
  simp only at this
  rw [e] at this
  exact this

/-- Data for the examples, no counterpart in /repo. -/
private def nd (x y : Int) : OsmObj := .node ⟨Obj.new, ⟨x, y⟩⟩

example : readWith findBbox Bounds.empty
    (protocol (Meta.new false) [nd 1 5, nd (-3) 2, nd 0 9, .way Way.new]).dropLast =
      ⟨⟨-3, 2⟩, ⟨1, 9⟩⟩ := by decide +kernel

/-- **C39**, the limit: nodes after the first node block are not seen. -/
theorem findBbox_second_block :
    readWith findBbox Bounds.empty
      (protocol (Meta.new false) [nd 1 5, .way Way.new, nd 70 90]).dropLast =
      ⟨⟨1, 5⟩, ⟨1, 5⟩⟩ := by decide +kernel

end Osmium
