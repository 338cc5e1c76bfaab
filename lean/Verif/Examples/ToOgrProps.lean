import Verif.Examples.ToOgr
import Verif.Examples.ToShapeProps
import Verif.Tags.Props

/-
Properties C90 and C91: the rows osmium_to_postgis and osmium_toogr make of a file.
-/
namespace Osmium
open Spec

namespace Spec

/-- The tags that are not left out. -/
def keptTags (n : Node) : List Tag := n.obj.tags.filter fun t => t.key ≠ "created_by" ∧ t.key ≠ "odbl"

/-- The row for a node: its position, its id in decimal, and a text that PostgreSQL reads as the tags of the node
(without those left out). -/
def PgRow (n : Node) (f : OgrFeature) : Prop :=
  f.geometry = .point n.position.lon n.position.lat ∧
  ∃ tags, f.fields = [("id", .text (some (Text.intDec n.obj.id))), ("tags", .text (some tags))] ∧
    hstoreParse tags = some ((keptTags n).map fun t => (t.key.toList, t.value.toList))

/-- The nodes of a file. -/
def fileNodes (os : List OsmObj) : List Node := os.filterMap fun | .node n => some n | _ => none

/-- The rows made. -/
def madeRows (ops : List PgOp) : List OgrFeature := ops.filterMap fun | .create f => some f | _ => none

/-- The feature for a post box: its position, its id, and the operator if there is one. -/
def OgrPostBox (n : Node) (f : OgrFeature) : Prop :=
  f = ⟨.point n.position.lon n.position.lat, [("id", .real n.obj.id),
    ("operator", .text ((TagList.getValueByKey n.obj.tags "operator").map tagText))]⟩

/-- The feature for a road: the positions of its nodes in order, its id, and the type of the road. -/
def OgrRoad (w : Way) (f : OgrFeature) : Prop :=
  ∃ v, TagList.getValueByKey w.obj.tags "highway" = some v ∧
    f = ⟨.line (w.nodes.map fun wn => (wn.position.lon, wn.position.lat)),
      [("id", .real w.obj.id), ("type", .text (some (tagText v)))]⟩

end Spec

/-! ### osmium_to_postgis -/

theorem pgFilter_apply (t : Tag) : pgFilter.apply t = decide (t.key ≠ "created_by" ∧ t.key ≠ "odbl") := by
  show keyFilterLoop t true [(false, "created_by"), (false, "odbl")] = _
  simp only [keyFilterLoop]
  by_cases h1 : t.key = "created_by"
  · simp [h1]
  · by_cases h2 : t.key = "odbl"
    · simp [h2]
    · have h1' : ¬ "created_by" = t.key := fun e => h1 e.symm
      have h2' : ¬ "odbl" = t.key := fun e => h2 e.symm
      simp [h1, h2, h1', h2']

theorem hstore_all_nil_iff (tags : TagList) : hstoreOp.all tags = [] ↔ tags = [] := by
  constructor
  · intro h
    have := hstore_round_trip tags
    rw [h] at this
    have e : hstoreParse [] = some [] := by decide
    rw [e] at this
    have := (Option.some.inj this).symm
    exact List.map_eq_nil_iff.1 this
  · rintro rfl
    rfl

theorem pgNode_spec (n : Node) :
    (keptTags n = [] → pgNode n = none) ∧ (keptTags n ≠ [] → ∃ f, pgNode n = some f ∧ PgRow n f) := by
  have hk : filterAndAccumulate n.obj.tags pgFilter.apply [] hstoreOp.apply = hstoreOp.all (keptTags n) := by
    rw [filter_and_accumulate_exact]
    unfold TagToString.all keptTags
    congr 2
    funext t
    exact pgFilter_apply t
  have he : n.obj.tags.isEmpty = true → keptTags n = [] := by
    intro h
    unfold keptTags
    rw [List.isEmpty_iff.1 h]
    rfl
  unfold pgNode
  simp only [hk]
  constructor
  · intro h
    split
    · rfl
    · rw [if_pos ((hstore_all_nil_iff _).2 h)]
  · intro h
    rw [if_neg (fun h' => h (he h')), if_neg (fun h' => h ((hstore_all_nil_iff _).1 h'))]
    exact ⟨_, rfl, rfl, _, rfl, hstore_round_trip _⟩

/-- What a call does if the library accepts everything. (helper for proofs, no counterpart in /repo) -/
def pgOps : Cb → List PgOp
  | .obj (.node n) => (pgNode n).toList.map .create
  | .after .node => [.commit]
  | _ => []

theorem pgRun_ok (accepts : OgrFeature → Bool) (calls : List Cb)
    (h : ∀ n f, Cb.obj (.node n) ∈ calls → pgNode n = some f → accepts f = true) :
    pgRun accepts calls = .ok (calls.flatMap pgOps) := by
  induction calls with
  | nil => rfl
  | cons c calls ih =>
    have hs : pgStep accepts c = .ok (pgOps c) := by
      unfold pgStep pgOps
      split
      · rename_i n
        cases hn : pgNode n with
        | none => simp [hn]
        | some f => simp [h n f (by simp) hn, hn]
      · rfl
      · split <;> simp_all
    rw [pgRun, hs, ih (fun n f hc => h n f (List.mem_cons_of_mem _ hc))]
    rfl

theorem protocol_flatMap {β : Type} (f : Cb → List β) (m : Meta) (os : List OsmObj) :
    (protocol m os).flatMap f = f (.init m) ++ (runs os).flatMap (fun r => (runCalls r).flatMap f) ++ f .final := by
  unfold protocol
  simp [List.flatMap_append, List.flatMap_assoc]

theorem pgOps_objects (os : List OsmObj) :
    (os.map Cb.obj).flatMap pgOps = ((fileNodes os).filterMap pgNode).map .create := by
  induction os with
  | nil => rfl
  | cons o os ih =>
    rw [List.map_cons, List.flatMap_cons, ih]
    cases o with
    | node n =>
      show (pgNode n).toList.map PgOp.create ++ _ = (List.filterMap pgNode (n :: fileNodes os)).map _
      rw [List.filterMap_cons]
      cases pgNode n <;> rfl
    | way w => rfl
    | relation r => rfl

theorem madeRows_run (r : List OsmObj) : madeRows ((runCalls r).flatMap pgOps) = (fileNodes r).filterMap pgNode := by
  cases r with
  | nil => rfl
  | cons o r =>
    have hb : ∀ t, madeRows (pgOps (.before t)) = [] := fun t => rfl
    have ha : ∀ t, madeRows (pgOps (.after t)) = [] := fun t => by cases t <;> rfl
    have hc : ∀ l, madeRows (l.map PgOp.create) = l := by
      intro l
      unfold madeRows
      rw [List.filterMap_map]
      exact List.filterMap_some
    have happ : ∀ a b, madeRows (a ++ b) = madeRows a ++ madeRows b := fun a b => List.filterMap_append ..
    show madeRows (([Cb.before o.type] ++ (o :: r).map Cb.obj ++ [Cb.after o.type]).flatMap pgOps) = _
    rw [List.flatMap_append, List.flatMap_append, pgOps_objects]
    simp only [List.flatMap_singleton, happ, hb, ha, hc, List.nil_append, List.append_nil]

theorem fileNodes_append (a b : List OsmObj) : fileNodes (a ++ b) = fileNodes a ++ fileNodes b :=
  List.filterMap_append ..

theorem pgRows (ns : List Node) : List.Forall₂ PgRow (ns.filter fun n => keptTags n ≠ []) (ns.filterMap pgNode) := by
  induction ns with
  | nil => exact .nil
  | cons n ns ih =>
    obtain ⟨h1, h2⟩ := pgNode_spec n
    rw [List.filterMap_cons, List.filter_cons]
    by_cases h : keptTags n = []
    · rw [h1 h, if_neg (by simp [h])]
      exact ih
    · obtain ⟨f, e1, e2⟩ := h2 h
      rw [e1, if_pos (by simp [h])]
      exact .cons e2 ih

/-- C90: if the database accepts all rows, exactly the nodes with tags (others than `created_by` and `odbl`) get a
row, in the order of the file, whatever the order of the file is. -/
theorem to_postgis_rows (accepts : OgrFeature → Bool) (m : Meta) (os : List OsmObj)
    (h : ∀ n ∈ fileNodes os, ∀ f, PgRow n f → accepts f = true) :
    ∃ ops, pgMain accepts (protocol m os) = .ok ops ∧
      List.Forall₂ PgRow ((fileNodes os).filter fun n => keptTags n ≠ []) (madeRows ops) := by
  have hmem : ∀ n, Cb.obj (.node n) ∈ protocol m os → n ∈ fileNodes os := by
    intro n hn
    unfold protocol at hn
    have : Cb.obj (.node n) ∈ (runs os).flatMap runCalls := by simpa using hn
    obtain ⟨r, h1, h2⟩ := List.mem_flatMap.1 this
    refine List.mem_filterMap.2 ⟨.node n, ?_, rfl⟩
    rw [← runs_flatten os]
    refine List.mem_flatten.2 ⟨r, h1, ?_⟩
    cases r with
    | nil => cases h2
    | cons o r =>
      have : Cb.obj (.node n) ∈ [Cb.before o.type] ++ (o :: r).map Cb.obj ++ [Cb.after o.type] := h2
      simpa using this
  have hr := pgRun_ok accepts (protocol m os) (fun n f hn hf => by
    refine h n (hmem n hn) f ?_
    by_cases hk : keptTags n = []
    · rw [(pgNode_spec n).1 hk] at hf; cases hf
    · obtain ⟨f', e1, e2⟩ := (pgNode_spec n).2 hk
      rw [e1] at hf
      cases hf
      exact e2)
  refine ⟨_, by unfold pgMain; rw [hr], ?_⟩
  have : madeRows (.start :: (protocol m os).flatMap pgOps) = (fileNodes os).filterMap pgNode := by
    have happ : ∀ a b, madeRows (a ++ b) = madeRows a ++ madeRows b := fun a b => List.filterMap_append ..
    rw [protocol_flatMap]
    show madeRows ([] ++ _ ++ []) = _
    rw [List.nil_append, List.append_nil]
    have : ∀ rs : List (List OsmObj), madeRows (rs.flatMap fun r => (runCalls r).flatMap pgOps) =
        (fileNodes rs.flatten).filterMap pgNode := by
      intro rs
      induction rs with
      | nil => rfl
      | cons r rs ih =>
        rw [List.flatMap_cons, happ, ih, madeRows_run, List.flatten_cons, fileNodes_append, List.filterMap_append]
    rw [this, runs_flatten]
  rw [this]
  exact pgRows _

/-- C90 for a file in the usual order: all rows are made in one transaction, which is committed at the end. -/
theorem to_postgis_transaction (accepts : OgrFeature → Bool) (m : Meta) (ns : List Node) (ws : List Way)
    (rs : List Relation) (hne : ns ≠ []) (ops : List PgOp)
    (h : pgMain accepts (protocol m (fileOf ns ws rs)) = .ok ops) :
    ∃ fs : List OgrFeature, ops = .start :: fs.map .create ++ [.commit] := by
  have key : ∀ calls ops, pgRun accepts calls = .ok ops → ops = calls.flatMap pgOps := by
    intro calls
    induction calls with
    | nil => intro ops h; cases h; rfl
    | cons c calls ih =>
      intro ops h
      rw [pgRun] at h
      cases h1 : pgStep accepts c with
      | error e => rw [h1] at h; cases h
      | ok a =>
        cases h2 : pgRun accepts calls with
        | error e => rw [h1] at h; simp only [h2] at h; cases h
        | ok b =>
          rw [h1] at h
          simp only [h2] at h
          cases h
          rw [List.flatMap_cons, ← ih b h2]
          congr 1
          unfold pgStep at h1
          unfold pgOps
          split at h1
          · rename_i n
            cases hn : pgNode n with
            | none => simp only [hn] at h1; cases h1; simp [hn]
            | some f =>
              simp only [hn] at h1
              split at h1
              · cases h1; simp [hn]
              · cases h1
          · cases h1; rfl
          · cases h1
            split <;> simp_all
  unfold pgMain at h
  cases h1 : pgRun accepts (protocol m (fileOf ns ws rs)) with
  | error e => rw [h1] at h; cases h
  | ok o =>
    rw [h1] at h
    cases h
    rw [key _ _ h1]
    refine ⟨ns.filterMap pgNode, ?_⟩
    rw [protocol_fileOf]
    obtain ⟨n, ns', rfl⟩ := List.exists_cons_of_ne_nil hne
    have hn : (runCalls ((n :: ns').map OsmObj.node)).flatMap pgOps =
        ((n :: ns').filterMap pgNode).map .create ++ [.commit] := by
      show ([Cb.before .node] ++ ((n :: ns').map OsmObj.node).map Cb.obj ++ [Cb.after .node]).flatMap pgOps = _
      rw [List.flatMap_append, List.flatMap_append, pgOps_objects]
      have : fileNodes ((n :: ns').map OsmObj.node) = n :: ns' := by
        unfold fileNodes
        rw [List.filterMap_map]
        exact List.filterMap_some
      rw [this]
      rfl
    have hw : (runCalls (ws.map OsmObj.way)).flatMap pgOps = [] := by
      cases ws with
      | nil => rfl
      | cons w ws =>
        show ([Cb.before .way] ++ ((w :: ws).map OsmObj.way).map Cb.obj ++ [Cb.after .way]).flatMap pgOps = _
        rw [List.flatMap_append, List.flatMap_append, pgOps_objects]
        have : fileNodes ((w :: ws).map OsmObj.way) = [] := by
          unfold fileNodes
          rw [List.filterMap_map]
          exact List.filterMap_eq_nil_iff.2 fun _ _ => rfl
        rw [this]
        rfl
    have hr : (runCalls (rs.map OsmObj.relation)).flatMap pgOps = [] := by
      cases rs with
      | nil => rfl
      | cons w ws =>
        show ([Cb.before .relation] ++ ((w :: ws).map OsmObj.relation).map Cb.obj ++ [Cb.after .relation]).flatMap pgOps = _
        rw [List.flatMap_append, List.flatMap_append, pgOps_objects]
        have : fileNodes ((w :: ws).map OsmObj.relation) = [] := by
          unfold fileNodes
          rw [List.filterMap_map]
          exact List.filterMap_eq_nil_iff.2 fun _ _ => rfl
        rw [this]
        rfl
    rw [List.flatMap_append, List.flatMap_append, List.flatMap_append, List.flatMap_cons, hn, hw, hr]
    simp [pgOps]

/-- (example) -/
def pgNodes : List Node :=
  [⟨{ Obj.new with id := 5, tags := [⟨"created_by", "JOSM"⟩] }, ⟨10000000, 20000000⟩⟩,
   ⟨{ Obj.new with id := -7, tags := [⟨"name", "a\"b"⟩, ⟨"odbl", "clean"⟩] }, ⟨10000000, -25000000⟩⟩,
   ⟨Obj.new, ⟨0, 0⟩⟩]

example : (pgMain (fun _ => true) (protocol (Meta.new false) (pgNodes.map OsmObj.node))).toOption =
    some [.start, .create ⟨.point 1 (-5 / 2), [("id", .text (some "-7".toList)),
      ("tags", .text (some "\"name\"=>\"a\\\"b\"".toList))]⟩, .commit] := by decide +kernel

/-! ### osmium_toogr -/

/-- The layers after some calls of which the arguments are as the handler for coordinates left them. (helper for
statements and proofs, no counterpart in /repo) -/
def layersRun (accepts : OgrFeature → Bool) :
    List OgrFeature × List OgrFeature → List Cb → Res (List OgrFeature × List OgrFeature)
  | s, [] => .ok s
  | s, c :: cs =>
    match toogrStep accepts s c with
    | .error e => .error e
    | .ok s => layersRun accepts s cs

theorem toogrRun_eq {S T : Type} {pos : IdStore S Position} {neg : IdStore T Position}
    (accepts : OgrFeature → Bool) (calls : List Cb) (c : S × T) (out : List Cb)
    (s : List OgrFeature × List OgrFeature) (h : cfwRun pos neg c calls = .ok out) :
    toogrRun pos neg accepts c s calls = layersRun accepts s out := by
  induction calls generalizing c out s with
  | nil => cases h; rfl
  | cons call calls ih =>
    unfold cfwRun at h
    cases h1 : cfwStep pos neg c call with
    | error e => rw [h1] at h; cases h
    | ok r =>
      rw [h1] at h
      change (do let out ← cfwRun pos neg r.1 calls; return r.2 :: out) = _ at h
      cases h2 : cfwRun pos neg r.1 calls with
      | error e => rw [h2] at h; cases h
      | ok o =>
        rw [h2] at h
        cases h
        rw [toogrRun, layersRun, h1]
        obtain ⟨c', call'⟩ := r
        simp only
        cases toogrStep accepts s call' with
        | error e => rfl
        | ok s' => exact ih c' o s' h2

theorem layersRun_ok (accepts : OgrFeature → Bool) (calls : List Cb)
    (hn : ∀ n f, Cb.obj (.node n) ∈ calls → toogrNode n = some f → accepts f = true)
    (hw : ∀ w f, Cb.obj (.way w) ∈ calls → toogrWay w = some f → accepts f = true)
    (s : List OgrFeature × List OgrFeature) :
    layersRun accepts s calls = .ok
      (s.1 ++ (calls.filterMap fun | .obj (.node n) => some n | _ => none).filterMap toogrNode,
       s.2 ++ (calls.filterMap fun | .obj (.way w) => some w | _ => none).filterMap toogrWay) := by
  induction calls generalizing s with
  | nil => simp [layersRun]
  | cons c calls ih =>
    have ih := ih (fun n f h => hn n f (List.mem_cons_of_mem _ h)) (fun n f h => hw n f (List.mem_cons_of_mem _ h))
    rw [layersRun]
    cases c with
    | obj o =>
      cases o with
      | node n =>
        cases h : toogrNode n with
        | none =>
          have e : toogrStep accepts s (.obj (.node n)) = .ok s := by
            simp only [toogrStep, h, createFeature]; rfl
          rw [e]
          simp [ih, h]
        | some f =>
          have e : toogrStep accepts s (.obj (.node n)) = .ok (s.1 ++ [f], s.2) := by
            simp only [toogrStep, h, createFeature, hn n f (by simp) h]; rfl
          rw [e]
          simp [ih, h]
      | way n =>
        cases h : toogrWay n with
        | none =>
          have e : toogrStep accepts s (.obj (.way n)) = .ok s := by
            simp only [toogrStep, h, createFeature]; rfl
          rw [e]
          simp [ih, h]
        | some f =>
          have e : toogrStep accepts s (.obj (.way n)) = .ok (s.1, s.2 ++ [f]) := by
            simp only [toogrStep, h, createFeature, hw n f (by simp) h]; rfl
          rw [e]
          simp [ih, h]
      | relation r => simpa [toogrStep] using ih s
    | init m => simpa [toogrStep] using ih s
    | before t => simpa [toogrStep] using ih s
    | after t => simpa [toogrStep] using ih s
    | final => simpa [toogrStep] using ih s

theorem toogrNode_spec (n : Node) (hid : |n.obj.id| ≤ 2 ^ 53) :
    (¬ IsPostBox n → toogrNode n = none) ∧ (IsPostBox n → ∃ f, toogrNode n = some f ∧ OgrPostBox n f) := by
  have hfl : fl (n.obj.id : ℚ) = n.obj.id := fl_int _ hid
  unfold toogrNode
  constructor
  · intro h
    split
    · rfl
    · rename_i v hv
      rw [if_neg (show ¬ cText v = _ from fun e => h ⟨v, hv, e⟩)]
  · rintro ⟨v, h1, h2⟩
    rw [h1]
    simp only
    rw [if_pos (show cText v = _ from h2), hfl]
    exact ⟨_, rfl, rfl⟩

theorem toogrWay_spec (w : Way) (hid : |w.obj.id| ≤ 2 ^ 53) :
    (¬ IsRoad w → toogrWay w = none) ∧ (IsRoad w → ∃ f, toogrWay w = some f ∧ OgrRoad w f) := by
  have hfl : fl (w.obj.id : ℚ) = w.obj.id := fl_int _ hid
  unfold toogrWay IsRoad
  cases h : TagList.getValueByKey w.obj.tags "highway" with
  | none => exact ⟨fun _ => rfl, fun h => by cases h⟩
  | some v =>
    refine ⟨fun h => absurd rfl h, fun _ => ⟨_, rfl, v, h, ?_⟩⟩
    rw [hfl]
    rfl

theorem forall₂_filterMap {α β : Type} {P : α → Prop} [DecidablePred P] {R : α → β → Prop} (g : α → Option β)
    (l : List α) (h : ∀ a ∈ l, (¬ P a → g a = none) ∧ (P a → ∃ b, g a = some b ∧ R a b)) :
    List.Forall₂ R (l.filter fun a => P a) (l.filterMap g) := by
  induction l with
  | nil => exact .nil
  | cons a l ih =>
    obtain ⟨h1, h2⟩ := h a (by simp)
    rw [List.filterMap_cons, List.filter_cons]
    by_cases hp : P a
    · obtain ⟨b, e1, e2⟩ := h2 hp
      rw [e1, if_pos (by simpa using hp)]
      exact .cons e2 (ih fun a ha => h a (List.mem_cons_of_mem _ ha))
    · rw [h1 hp, if_neg (by simpa using hp)]
      exact ih fun a ha => h a (List.mem_cons_of_mem _ ha)

/-- C91 for a file with nodes, ways and relations in this order and different ids of nodes: the first layer has
exactly the post boxes, the second exactly the roads, in the order of the file, with the positions of the nodes in
the file.  Missing: nodes that are not in the file get the position `unset`; ids have to be small enough for a
double. -/
theorem toogr_partial {S T : Type} {pos : IdStore S Position} {neg : IdStore T Position}
    {okp okn : List (Nat × Position) → Prop} {up un : Nat → Res Position} {unset : Position}
    (fp : Faithful pos okp up) (fn : Faithful neg okn un) (m : Meta)
    (ns : List Node) (ws : List Way) (rs : List Relation) (hd : (ns.map fun n => n.obj.id).Nodup)
    (hn : ∀ n ∈ ns, NegatableId n.obj.id) (hw : ∀ w ∈ ws, ∀ wn ∈ w.nodes, NegatableId wn.ref)
    (hokp : ∀ j, okp ((posOps (nodeCalls ns)).take j)) (hokn : ∀ j, okn ((negOps (nodeCalls ns)).take j))
    (hu : ∀ w ∈ ws, ∀ wn ∈ w.nodes, (∀ n ∈ ns, n.obj.id ≠ wn.ref) →
      (if 0 ≤ wn.ref then up wn.ref.toNat else un (-wn.ref).toNat) = .ok unset)
    (hin : ∀ n ∈ ns, |n.obj.id| ≤ 2 ^ 53) (hiw : ∀ w ∈ ws, |w.obj.id| ≤ 2 ^ 53)
    (accepts : OgrFeature → Bool) (ha : ∀ f, accepts f = true) :
    ∃ ws' boxes roads, List.Forall₂ (LocatedBy ns unset) ws ws' ∧
      toogrMain pos neg accepts (protocol m (fileOf ns ws rs)) = .ok (boxes, roads) ∧
      List.Forall₂ OgrPostBox (ns.filter fun n => IsPostBox n) boxes ∧
      List.Forall₂ OgrRoad (ws'.filter fun w => IsRoad w) roads := by
  obtain ⟨ws', h1, h2⟩ := coordinates_file fp fn m ns ws rs hd hn hw hokp hokn hu
  refine ⟨ws', _, _, h1, ?_, forall₂_filterMap toogrNode ns fun n h => toogrNode_spec n (hin n h),
    forall₂_filterMap toogrWay ws' fun w h => ?_⟩
  · unfold toogrMain
    rw [toogrRun_eq accepts _ _ _ _ h2, layersRun_ok accepts _ (fun _ _ _ _ => ha _) (fun _ _ _ _ => ha _)]
    exact congrArg Except.ok (Prod.ext (congrArg (List.filterMap toogrNode) (nodesOf_file m ns ws' rs))
      (congrArg (List.filterMap toogrWay) (waysOf_file m ns ws' rs)))
  · obtain ⟨w0, k1, k2⟩ := forall₂_mem_right h1 w h
    refine toogrWay_spec w ?_
    rw [k2.1]
    exact hiw w0 k1

/-- C91 for the storages that the program uses (the same as in osmium_toshape), if there are no negative ids. -/
theorem toogr_stores_partial (os : Nat → Bool) (m : Meta)
    (ns : List Node) (ws : List Way) (rs : List Relation) (hd : (ns.map fun n => n.obj.id).Nodup)
    (hn : ∀ n ∈ ns, 0 ≤ n.obj.id ∧ n.obj.id ≤ 9007199254740992)
    (hw : ∀ w ∈ ws, |w.obj.id| ≤ 9007199254740992 ∧ ∀ wn ∈ w.nodes, 0 ≤ wn.ref ∧ wn.ref ≤ 9223372036854775807)
    (accepts : OgrFeature → Bool) (ha : ∀ f, accepts f = true) :
    ∃ ws' boxes roads, List.Forall₂ (LocatedBy ns Position.undef) ws ws' ∧
      toogrMain toshapePos (toshapeNeg os) accepts (protocol m (fileOf ns ws rs)) = .ok (boxes, roads) ∧
      List.Forall₂ OgrPostBox (ns.filter fun n => IsPostBox n) boxes ∧
      List.Forall₂ OgrRoad (ws'.filter fun w => IsRoad w) roads := by
  refine toogr_partial (sparseTable_faithful Position Position.undef 10000 (by omega))
    (mmapFile_unused 8 sizeIncrement os ⟨0, fun _ => ⟨0, 0⟩⟩ (by omega) (by decide) (by omega)) m ns ws rs hd
    (fun n h => ⟨by have := hn n h; omega, by have := hn n h; omega⟩)
    (fun w h wn h' => ⟨by have := (hw w h).2 wn h'; omega, ((hw w h).2 wn h').2⟩)
    ?_ ?_ ?_ (fun n h => ?_) (fun w h => by norm_num; exact (hw w h).1) accepts ha
  · intro j o ho
    obtain ⟨n, h1, h2, h3⟩ := mem_posOps.1 (List.mem_of_mem_take ho)
    obtain ⟨n', h4, h5⟩ := List.mem_map.1 h1
    cases h5
    have := hn n h4
    rw [h3]
    simp only
    omega
  · intro j
    rw [List.eq_nil_iff_forall_not_mem]
    intro o ho
    obtain ⟨n, h1, h2, -⟩ := mem_negOps.1 (List.mem_of_mem_take ho)
    obtain ⟨n', h4, h5⟩ := List.mem_map.1 h1
    cases h5
    have := hn n h4
    omega
  · intro w h wn h' _
    rw [if_pos ((hw w h).2 wn h').1]
  · have := hn n h
    rw [abs_of_nonneg this.1]
    norm_num
    exact this.2

/-- (example) -/
def toogrNodes : List Node :=
  [⟨{ Obj.new with id := 5, tags := [⟨"amenity", "post_box"⟩] }, ⟨10000000, 20000000⟩⟩,
   ⟨{ Obj.new with id := 7 }, ⟨10000000, -20000000⟩⟩]
/-- (example) -/
def toogrWays : List Way :=
  [⟨{ Obj.new with id := 9, tags := [⟨"highway", "service"⟩] }, [⟨7, Position.undef⟩, ⟨5, Position.undef⟩]⟩]

example : (toogrMain toshapePos (toshapeNeg fun _ => true) (fun _ => true)
      (protocol (Meta.new false) (fileOf toogrNodes toogrWays []))).toOption =
    some ([⟨.point 1 2, [("id", .real 5), ("operator", .text none)]⟩],
      [⟨.line [(1, -2), (1, 2)], [("id", .real 9), ("type", .text (some "service".toList))]⟩]) := by
  decide +kernel

/-- Disagreement with C91: a road gets a line even if its nodes are not in the file; missing nodes become points at
214.7483647 degrees. -/
theorem toogr_missing_node : (toogrMain toshapePos (toshapeNeg fun _ => true) (fun _ => true)
      (protocol (Meta.new false) (fileOf [] toogrWays []))).toOption =
    some ([], [⟨.line [(fixToDouble 2147483647, fixToDouble 2147483647), (fixToDouble 2147483647, fixToDouble 2147483647)],
      [("id", .real 9), ("type", .text (some "service".toList))]⟩]) := by
  decide +kernel

/-- Disagreement with C91: ids above 2^53 can change. -/
theorem toogr_big_id : (toogrNode ⟨{ Obj.new with id := 9007199254740993, tags := [⟨"amenity", "post_box"⟩] }, ⟨0, 0⟩⟩) =
    some ⟨.point 0 0, [("id", .real 9007199254740992), ("operator", .text none)]⟩ := by
  decide +kernel

end Osmium
