import Verif.Javascript.AreaScript
import Verif.Javascript.ListingProps

/-
C117: what callback_test.js prints.
-/
namespace Osmium
open Spec Text

namespace Spec

/-- The name of a call of a script. -/
def tickName : WholeCall → Option String
  | .call (.init _) => some "init"
  | .call (.before .node) => some "before_nodes"
  | .call (.before .way) => some "before_ways"
  | .call (.before .relation) => some "before_relations"
  | .call (.obj (.node _)) => some "node"
  | .call (.obj (.way _)) => some "way"
  | .call (.obj (.relation _)) => some "relation"
  | .call (.after .node) => some "after_nodes"
  | .call (.after .way) => some "after_ways"
  | .call (.after .relation) => some "after_relations"
  | .call .final => some "end"
  | .area _ _ => some "area"
  | _ => none

/-- The calls that come for each object. -/
def objectCallbacks : List String := ["node", "way", "relation", "area"]

/-- Only the first call for an object of each kind is kept, and all other calls. -/
def firstOfKind : List String → List String
  | [] => []
  | n :: ns => n :: if n ∈ objectCallbacks then (firstOfKind ns).filter (· ≠ n) else firstOfKind ns

/-- Names as they are printed, each with a tick on a line of its own. -/
def ticked (names : List String) : List UInt8 := printed (names.map fun n => "✔ ".toList ++ n.toList)

end Spec

/-- The names that have been seen. (helper for statements and proofs, no counterpart in /repo) -/
def seenNames (s : CallbackTest) : List String :=
  (if s.calledNode then ["node"] else []) ++ (if s.calledWay then ["way"] else []) ++
  (if s.calledRelation then ["relation"] else []) ++ if s.calledArea then ["area"] else []

theorem printTick_ok {name : String} (h : ("✔ ".toList ++ name.toList).length < 268435455) (h0 : '\x00' ∉ "✔ ".toList ++ name.toList)
    (out : List UInt8) : printTick out name = .ok (out ++ ticked [name]) := by
  unfold printTick ticked
  rw [jsLit_eq, printText_ok _ _ (printable_short h0 h), List.map_singleton, printed_one]

theorem mem_seenNames (s : CallbackTest) (n : String) : n ∈ seenNames s ↔ (s.calledNode = true ∧ n = "node") ∨
    (s.calledWay = true ∧ n = "way") ∨ (s.calledRelation = true ∧ n = "relation") ∨ (s.calledArea = true ∧ n = "area") := by
  obtain ⟨a, b, c, d, o⟩ := s
  simp only [seenNames]
  cases a <;> cases b <;> cases c <;> cases d <;> simp

/-- One call: the name is printed unless it is one of an object of a kind that has been seen. -/
theorem tickCall_ok (s : CallbackTest) (c : WholeCall) :
    ∃ s', tickCall s c = .ok s' ∧
      s'.out = s.out ++ ticked ((tickName c).toList.filter fun n => n ∉ seenNames s) ∧
      ∀ n, n ∈ seenNames s' ↔ n ∈ seenNames s ∨ (some n = tickName c ∧ n ∈ objectCallbacks) := by
  have hname : ∀ n ∈ ["init", "before_nodes", "before_ways", "before_relations", "node", "way", "relation", "after_nodes",
      "after_ways", "after_relations", "end", "area"], ∀ out, printTick out n = .ok (out ++ ticked [n]) := by
    intro n hn out
    have h : ∀ n ∈ ["init", "before_nodes", "before_ways", "before_relations", "node", "way", "relation", "after_nodes",
      "after_ways", "after_relations", "end", "area"], ("✔ ".toList ++ n.toList).length < 268435455 ∧
        '\x00' ∉ "✔ ".toList ++ n.toList := by decide +kernel
    exact printTick_ok (h n hn).1 (h n hn).2 out
  have hnone : ticked [] = [] := by simp [ticked, printed, utf8]
  have hother : ∀ n ∈ ["init", "before_nodes", "before_ways", "before_relations", "after_nodes", "after_ways",
      "after_relations", "end"], n ∉ objectCallbacks ∧ n ∉ seenNames s := by
    intro n hn
    have h : ∀ n ∈ ["init", "before_nodes", "before_ways", "before_relations", "after_nodes", "after_ways",
      "after_relations", "end"], n ∉ objectCallbacks ∧ n ≠ "node" ∧ n ≠ "way" ∧ n ≠ "relation" ∧ n ≠ "area" := by decide
    obtain ⟨h1, h2, h3, h4, h5⟩ := h n hn
    exact ⟨h1, by rw [mem_seenNames]; simp [h2, h3, h4, h5]⟩
  have hsub : ∀ n ∈ ["init", "before_nodes", "before_ways", "before_relations", "after_nodes", "after_ways",
      "after_relations", "end"], n ∈ ["init", "before_nodes", "before_ways", "before_relations", "node", "way", "relation",
      "after_nodes", "after_ways", "after_relations", "end", "area"] := by decide
  have key : ∀ n ∈ ["init", "before_nodes", "before_ways", "before_relations", "after_nodes", "after_ways",
      "after_relations", "end"], tickName c = some n →
      tickCall s c = (printTick s.out n).map (fun out => { s with out := out }) →
      ∃ s', tickCall s c = .ok s' ∧
      s'.out = s.out ++ ticked ((tickName c).toList.filter fun n => n ∉ seenNames s) ∧
      ∀ n, n ∈ seenNames s' ↔ n ∈ seenNames s ∨ (some n = tickName c ∧ n ∈ objectCallbacks) := by
    intro n hn h1 h2
    have h3 := hname n (hsub n hn) s.out
    obtain ⟨h4, h5⟩ := hother n hn
    refine ⟨_, by rw [h2, h3]; rfl, ?_, fun k => ?_⟩
    · rw [h1]
      simp [h5]
    · rw [h1]
      constructor
      · exact Or.inl
      · rintro (h | ⟨h, h'⟩)
        · exact h
        · cases h; exact absurd h' h4
  have none_case : tickName c = none → tickCall s c = .ok s → ∃ s', tickCall s c = .ok s' ∧
      s'.out = s.out ++ ticked ((tickName c).toList.filter fun n => n ∉ seenNames s) ∧
      ∀ n, n ∈ seenNames s' ↔ n ∈ seenNames s ∨ (some n = tickName c ∧ n ∈ objectCallbacks) := by
    intro h1 h2
    refine ⟨s, h2, ?_, fun k => ?_⟩
    · rw [h1]; simp [hnone]
    · rw [h1]; simp
  match c with
  | .call (.init m) => exact key "init" (by simp) rfl rfl
  | .call (.before .node) => exact key "before_nodes" (by simp) rfl rfl
  | .call (.before .way) => exact key "before_ways" (by simp) rfl rfl
  | .call (.before .relation) => exact key "before_relations" (by simp) rfl rfl
  | .call (.after .node) => exact key "after_nodes" (by simp) rfl rfl
  | .call (.after .way) => exact key "after_ways" (by simp) rfl rfl
  | .call (.after .relation) => exact key "after_relations" (by simp) rfl rfl
  | .call .final => exact key "end" (by simp) rfl rfl
  | .call (.before .unknown) => exact none_case rfl rfl
  | .call (.before .area) => exact none_case rfl rfl
  | .call (.after .unknown) => exact none_case rfl rfl
  | .call (.after .area) => exact none_case rfl rfl
  | .call (.obj (.node o)) =>
    have e := hname "node" (by simp) s.out
    clear hname hother hsub key none_case
    obtain ⟨a, b, c, d, out⟩ := s
    cases a with
    | true =>
      refine ⟨_, rfl, by simp [tickName, mem_seenNames, hnone], fun n => ?_⟩
      simp only [mem_seenNames, tickName, Option.some.injEq]
      generalize (n = "node") = p0
      generalize (n = "way") = p1
      generalize (n = "relation") = p2
      generalize (n = "area") = p3
      clear e hnone
      tauto
    | false =>
      refine ⟨⟨true, b, c, d, out ++ ticked ["node"]⟩, ?_, ?_, fun n => ?_⟩
      · simp only [tickCall, Bool.not_false, if_true, e]; rfl
      · simp [tickName, mem_seenNames]
      · have : n = "node" → n ∈ objectCallbacks := by rintro rfl; decide
        simp only [mem_seenNames, tickName, Option.some.injEq]
        revert this
        generalize (n ∈ objectCallbacks) = q
        generalize (n = "node") = p0
        generalize (n = "way") = p1
        generalize (n = "relation") = p2
        generalize (n = "area") = p3
        clear e hnone
        tauto
  | .call (.obj (.way o)) =>
    have e := hname "way" (by simp) s.out
    clear hname hother hsub key none_case
    obtain ⟨a, b, c, d, out⟩ := s
    cases b with
    | true =>
      refine ⟨_, rfl, by simp [tickName, mem_seenNames, hnone], fun n => ?_⟩
      simp only [mem_seenNames, tickName, Option.some.injEq]
      generalize (n = "node") = p0
      generalize (n = "way") = p1
      generalize (n = "relation") = p2
      generalize (n = "area") = p3
      clear e hnone
      tauto
    | false =>
      refine ⟨⟨a, true, c, d, out ++ ticked ["way"]⟩, ?_, ?_, fun n => ?_⟩
      · simp only [tickCall, Bool.not_false, if_true, e]; rfl
      · simp [tickName, mem_seenNames]
      · have : n = "way" → n ∈ objectCallbacks := by rintro rfl; decide
        simp only [mem_seenNames, tickName, Option.some.injEq]
        revert this
        generalize (n ∈ objectCallbacks) = q
        generalize (n = "node") = p0
        generalize (n = "way") = p1
        generalize (n = "relation") = p2
        generalize (n = "area") = p3
        clear e hnone
        tauto
  | .call (.obj (.relation o)) =>
    have e := hname "relation" (by simp) s.out
    clear hname hother hsub key none_case
    obtain ⟨a, b, c, d, out⟩ := s
    cases c with
    | true =>
      refine ⟨_, rfl, by simp [tickName, mem_seenNames, hnone], fun n => ?_⟩
      simp only [mem_seenNames, tickName, Option.some.injEq]
      generalize (n = "node") = p0
      generalize (n = "way") = p1
      generalize (n = "relation") = p2
      generalize (n = "area") = p3
      clear e hnone
      tauto
    | false =>
      refine ⟨⟨a, b, true, d, out ++ ticked ["relation"]⟩, ?_, ?_, fun n => ?_⟩
      · simp only [tickCall, Bool.not_false, if_true, e]; rfl
      · simp [tickName, mem_seenNames]
      · have : n = "relation" → n ∈ objectCallbacks := by rintro rfl; decide
        simp only [mem_seenNames, tickName, Option.some.injEq]
        revert this
        generalize (n ∈ objectCallbacks) = q
        generalize (n = "node") = p0
        generalize (n = "way") = p1
        generalize (n = "relation") = p2
        generalize (n = "area") = p3
        clear e hnone
        tauto
  | .area a' g =>
    have e := hname "area" (by simp) s.out
    clear hname hother hsub key none_case
    obtain ⟨a, b, c, d, out⟩ := s
    cases d with
    | true =>
      refine ⟨_, rfl, by simp [tickName, mem_seenNames, hnone], fun n => ?_⟩
      simp only [mem_seenNames, tickName, Option.some.injEq]
      generalize (n = "node") = p0
      generalize (n = "way") = p1
      generalize (n = "relation") = p2
      generalize (n = "area") = p3
      clear e hnone
      tauto
    | false =>
      refine ⟨⟨a, b, c, true, out ++ ticked ["area"]⟩, ?_, ?_, fun n => ?_⟩
      · simp only [tickCall, Bool.not_false, if_true, e]; rfl
      · simp [tickName, mem_seenNames]
      · have : n = "area" → n ∈ objectCallbacks := by rintro rfl; decide
        simp only [mem_seenNames, tickName, Option.some.injEq]
        revert this
        generalize (n ∈ objectCallbacks) = q
        generalize (n = "node") = p0
        generalize (n = "way") = p1
        generalize (n = "relation") = p2
        generalize (n = "area") = p3
        clear e hnone
        tauto

theorem ticked_append (a b : List String) : ticked (a ++ b) = ticked a ++ ticked b := by
  unfold ticked
  rw [List.map_append, printed_append]

theorem tickCalls_ok (cs : List WholeCall) (s : CallbackTest) :
    ∃ s', callChain tickCall s cs = .ok s' ∧
      s'.out = s.out ++ ticked ((firstOfKind (cs.filterMap tickName)).filter fun n => n ∉ seenNames s) := by
  induction cs generalizing s with
  | nil => exact ⟨s, rfl, by simp [firstOfKind, ticked, printed, utf8]⟩
  | cons c cs ih =>
    obtain ⟨s1, h1, h2, h3⟩ := tickCall_ok s c
    obtain ⟨s2, h4, h5⟩ := ih s1
    refine ⟨s2, by rw [callChain, h1]; exact h4, ?_⟩
    rw [h5, h2, List.append_assoc, ← ticked_append, List.filterMap_cons]
    congr 2
    cases hc : tickName c with
    | none =>
      rw [hc] at h3
      simp only [Option.toList_none, List.filter_nil, List.nil_append]
      apply List.filter_congr
      intro n _
      have := h3 n
      simp at this
      simp [this]
    | some n =>
      rw [hc] at h3
      simp only [Option.toList_some, firstOfKind]
      rw [List.filter_cons, List.filter_cons, List.filter_nil]
      have hrest : (firstOfKind (cs.filterMap tickName)).filter (fun k => decide (k ∉ seenNames s1)) =
          (if n ∈ objectCallbacks then (firstOfKind (cs.filterMap tickName)).filter (· ≠ n)
           else firstOfKind (cs.filterMap tickName)).filter (fun k => decide (k ∉ seenNames s)) := by
        split
        · rename_i ho
          rw [List.filter_filter]
          apply List.filter_congr
          intro k _
          have := h3 k
          by_cases hk : k = n
          · subst hk; simp [this, ho]
          · simp [this, hk]
        · rename_i ho
          apply List.filter_congr
          intro k _
          have := h3 k
          by_cases hk : k = n
          · subst hk; simp [this, ho]
          · simp [this, hk]
      rw [hrest]
      split
      · rfl
      · rfl

/-- **C117.**  The script prints each call it gets on a line of its own, with a tick before it; for objects only the
first one of each kind. -/
theorem callback_test_lines (cs : List WholeCall) :
    (callChain tickCall ⟨false, false, false, false, []⟩ cs).map (·.out) =
      .ok (ticked (firstOfKind (cs.filterMap tickName))) := by
  obtain ⟨s, h1, h2⟩ := tickCalls_ok cs ⟨false, false, false, false, []⟩
  rw [h1]
  show Except.ok s.out = _
  rw [h2]
  simp [seenNames]

/-! ### Whole files -/

theorem firstOfKind_filter (p : String → Bool) (ns : List String) :
    (firstOfKind ns).filter p = firstOfKind (ns.filter p) := by
  induction ns with
  | nil => rfl
  | cons n ns ih =>
    rw [firstOfKind, List.filter_cons, List.filter_cons]
    have e : (if n ∈ objectCallbacks then (firstOfKind ns).filter (· ≠ n) else firstOfKind ns).filter p =
        if n ∈ objectCallbacks then (firstOfKind (ns.filter p)).filter (· ≠ n) else firstOfKind (ns.filter p) := by
      split
      · rw [List.filter_comm, ih]
      · exact ih
    rw [e]
    cases hp : p n with
    | true => rfl
    | false =>
      simp only [Bool.false_eq_true, if_false]
      split
      · rw [← ih, List.filter_filter]
        apply List.filter_congr
        intro k _
        by_cases hk : k = n
        · subst hk; simp [hp]
        · simp [hk]
      · rfl

theorem firstOfKind_append {a b : List String} (h : ∀ n ∈ a, n ∈ objectCallbacks → n ∉ b) :
    firstOfKind (a ++ b) = firstOfKind a ++ firstOfKind b := by
  induction a with
  | nil => rfl
  | cons n a ih =>
    rw [List.cons_append, firstOfKind, firstOfKind, ih fun k hk => h k (List.mem_cons_of_mem _ hk)]
    split
    · rename_i ho
      rw [List.filter_append, List.cons_append]
      congr 2
      rw [firstOfKind_filter]
      congr 1
      rw [List.filter_eq_self]
      intro k hk
      have := h n List.mem_cons_self ho
      simp only [decide_eq_true_eq]
      rintro rfl
      exact this hk
    · rfl

theorem firstOfKind_replicate {n : String} (h : n ∈ objectCallbacks) (k : Nat) :
    firstOfKind (List.replicate (k + 1) n) = [n] := by
  rw [List.replicate_succ, firstOfKind, if_pos h, firstOfKind_filter]
  simp [firstOfKind]

theorem count_firstOfKind {n : String} (h : n ∈ objectCallbacks) (ns : List String) :
    (firstOfKind ns).count n = if n ∈ ns then 1 else 0 := by
  induction ns with
  | nil => simp [firstOfKind]
  | cons k ns ih =>
    rw [firstOfKind]
    by_cases hk : k = n
    · subst hk
      rw [if_pos h, List.count_cons_self, if_pos List.mem_cons_self, List.count_eq_zero_of_not_mem]
      simp
    · rw [List.count_cons_of_ne hk]
      have hm : (n ∈ k :: ns) ↔ n ∈ ns := by simp [Ne.symm hk]
      simp only [hm]
      split
      · rw [← ih, List.count_filter]
        simp [Ne.symm hk]
      · exact ih

namespace Spec

/-- The names of the calls for a part of a file with objects of one kind, if there are any. -/
def partNames {α : Type} (l : List α) (before name after : String) : List String :=
  if l.isEmpty then [] else [before, name, after]

end Spec

theorem run_names {α : Type} (f : α → OsmObj) (t : ObjType) (b n a : String) (hb : tickName (.call (.before t)) = some b)
    (ha : tickName (.call (.after t)) = some a) (hn : ∀ x, tickName (.call (.obj (f x))) = some n)
    (ht : ∀ x, (f x).type = t) (hbo : b ∉ objectCallbacks) (hao : a ∉ objectCallbacks) (hno : n ∈ objectCallbacks)
    (l : List α) : firstOfKind (((runCalls (l.map f)).map WholeCall.call).filterMap tickName) = partNames l b n a := by
  cases l with
  | nil => rfl
  | cons x l =>
    have e : ((runCalls ((x :: l).map f)).map WholeCall.call).filterMap tickName =
        [b] ++ (List.replicate (l.length + 1) n ++ [a]) := by
      have e1 : runCalls ((x :: l).map f) = [.before t] ++ ((x :: l).map (fun x => Cb.obj (f x)) ++ [.after t]) := by
        rw [List.map_cons, runCalls, ht x]
        simp
      have e2 : ∀ m : List α, ((m.map fun x => Cb.obj (f x)).map WholeCall.call).filterMap tickName =
          List.replicate m.length n := by
        intro m
        induction m with
        | nil => rfl
        | cons y m ih => simp only [List.map_cons, List.filterMap_cons, hn]; rw [ih]; rfl
      rw [e1, List.map_append, List.map_append, List.filterMap_append, List.filterMap_append, e2]
      simp [hb, ha]
    rw [e, firstOfKind_append, firstOfKind_append, firstOfKind_replicate hno]
    · have h1 : firstOfKind [b] = [b] := by rw [firstOfKind, if_neg hbo]; rfl
      have h2 : firstOfKind [a] = [a] := by rw [firstOfKind, if_neg hao]; rfl
      rw [h1, h2]; rfl
    · intro k hk ho hka
      rw [List.mem_singleton] at hka
      exact hao (hka ▸ ho)
    · intro k hk ho
      rw [List.mem_singleton] at hk
      exact absurd ho (hk ▸ hbo)

theorem run_mem {α : Type} (f : α → OsmObj) (t : ObjType) (b n a : String) (hb : tickName (.call (.before t)) = some b)
    (ha : tickName (.call (.after t)) = some a) (hn : ∀ x, tickName (.call (.obj (f x))) = some n)
    (ht : ∀ x, (f x).type = t) (l : List α) :
    ∀ k ∈ ((runCalls (l.map f)).map WholeCall.call).filterMap tickName, k = b ∨ k = n ∨ k = a := by
  intro k hk
  obtain ⟨c, hc, e⟩ := List.mem_filterMap.1 hk
  obtain ⟨d, hd, rfl⟩ := List.mem_map.1 hc
  cases l with
  | nil => cases hd
  | cons x l =>
    rw [List.map_cons, runCalls, ht x] at hd
    simp only [List.cons_append, List.mem_cons, List.mem_append, List.mem_map, List.not_mem_nil, or_false] at hd
    rcases hd with rfl | ⟨o, ho, rfl⟩ | rfl
    · rw [hb] at e; cases e; exact .inl rfl
    · rcases ho with rfl | ⟨y, -, rfl⟩
      · rw [hn] at e; cases e; exact .inr (.inl rfl)
      · rw [hn] at e; cases e; exact .inr (.inl rfl)
    · rw [ha] at e; cases e; exact .inr (.inr rfl)

/-- The names for a file. -/
theorem protocol_names (m : Meta) (ns : List Node) (ws : List Way) (rs : List Relation) :
    firstOfKind (((protocol m (fileOf ns ws rs)).map WholeCall.call).filterMap tickName) =
      "init" :: partNames ns "before_nodes" "node" "after_nodes" ++ partNames ws "before_ways" "way" "after_ways" ++
        partNames rs "before_relations" "relation" "after_relations" ++ ["end"] := by
  have m1 := run_mem OsmObj.node .node "before_nodes" "node" "after_nodes" rfl rfl (fun _ => rfl) (fun _ => rfl) ns
  have m2 := run_mem OsmObj.way .way "before_ways" "way" "after_ways" rfl rfl (fun _ => rfl) (fun _ => rfl) ws
  have m3 := run_mem OsmObj.relation .relation "before_relations" "relation" "after_relations" rfl rfl (fun _ => rfl)
    (fun _ => rfl) rs
  have e1 := run_names OsmObj.node .node "before_nodes" "node" "after_nodes" rfl rfl (fun _ => rfl) (fun _ => rfl)
    (by decide) (by decide) (by decide) ns
  have e2 := run_names OsmObj.way .way "before_ways" "way" "after_ways" rfl rfl (fun _ => rfl) (fun _ => rfl)
    (by decide) (by decide) (by decide) ws
  have e3 := run_names OsmObj.relation .relation "before_relations" "relation" "after_relations" rfl rfl (fun _ => rfl)
    (fun _ => rfl) (by decide) (by decide) (by decide) rs
  have e : ((protocol m (fileOf ns ws rs)).map WholeCall.call).filterMap tickName = ["init"] ++
      (((runCalls (ns.map OsmObj.node)).map WholeCall.call).filterMap tickName ++
       (((runCalls (ws.map OsmObj.way)).map WholeCall.call).filterMap tickName ++
        (((runCalls (rs.map OsmObj.relation)).map WholeCall.call).filterMap tickName ++ ["end"]))) := by
    rw [protocol_fileOf]
    rw [List.map_append, List.map_append, List.map_append, List.filterMap_append, List.filterMap_append,
      List.filterMap_append, List.map_cons, List.filterMap_cons]
    rfl
  rw [e]
  generalize ((runCalls (ns.map OsmObj.node)).map WholeCall.call).filterMap tickName = A at m1 e1 ⊢
  generalize ((runCalls (ws.map OsmObj.way)).map WholeCall.call).filterMap tickName = B at m2 e2 ⊢
  generalize ((runCalls (rs.map OsmObj.relation)).map WholeCall.call).filterMap tickName = C at m3 e3 ⊢
  rw [firstOfKind_append, firstOfKind_append, firstOfKind_append, firstOfKind_append, e1, e2, e3]
  · rw [show firstOfKind ["init"] = ["init"] from rfl, show firstOfKind ["end"] = ["end"] from rfl]
    simp
  · intro k hk ho hk2
    rw [List.mem_singleton] at hk2
    subst hk2
    revert ho; decide
  · intro k hk ho hk2
    have h1 := m2 k hk
    rcases List.mem_append.1 hk2 with h | h
    · have h2 := m3 k h
      rcases h1 with rfl | rfl | rfl <;> revert h2 <;> decide
    · rw [List.mem_singleton] at h
      subst h
      revert ho; decide
  · intro k hk ho hk2
    have h1 := m1 k hk
    rcases List.mem_append.1 hk2 with h | h
    · have h2 := m2 k h
      rcases h1 with rfl | rfl | rfl <;> revert h2 <;> decide
    · rcases List.mem_append.1 h with h | h
      · have h2 := m3 k h
        rcases h1 with rfl | rfl | rfl <;> revert h2 <;> decide
      · rw [List.mem_singleton] at h
        subst h
        revert ho; decide
  · intro k hk ho
    rw [List.mem_singleton] at hk
    subst hk
    exact absurd ho (by decide)

theorem names_without_area (cs : List WholeCall) :
    (cs.filterMap tickName).filter (· ≠ "area") = ((otherCalls cs).map WholeCall.call).filterMap tickName := by
  induction cs with
  | nil => rfl
  | cons c cs ih =>
    cases c with
    | area a g =>
      rw [List.filterMap_cons]
      have e : otherCalls (.area a g :: cs) = otherCalls cs := rfl
      rw [e, ← ih]
      simp [tickName]
    | call c =>
      have e : otherCalls (.call c :: cs) = c :: otherCalls cs := rfl
      rw [e, List.map_cons, List.filterMap_cons, List.filterMap_cons, ← ih]
      have hne : ∀ n, tickName (.call c) = some n → n ≠ "area" := by
        intro n hn
        rcases c with m | t | o | t | _
        · cases hn; decide
        · cases t <;> first | (cases hn; decide) | cases hn
        · cases o <;> (cases hn; decide)
        · cases t <;> first | (cases hn; decide) | cases hn
        · cases hn; decide
      cases hc : tickName (.call c) with
      | none => rfl
      | some n => exact List.filter_cons_of_pos (by simpa using hne n hc)

theorem area_name_mem (cs : List WholeCall) : "area" ∈ cs.filterMap tickName ↔ areasIn cs ≠ [] := by
  constructor
  · intro h
    obtain ⟨c, hc, e⟩ := List.mem_filterMap.1 h
    cases c with
    | area a g => exact List.ne_nil_of_mem (List.mem_filterMap.2 ⟨_, hc, rfl⟩)
    | call c =>
      exfalso
      rcases c with m | t | o | t | _
      · revert e; simp [tickName]
      · cases t <;> revert e <;> simp [tickName]
      · cases o <;> revert e <;> simp [tickName]
      · cases t <;> revert e <;> simp [tickName]
      · revert e; simp [tickName]
  · intro h
    obtain ⟨a, ha⟩ := List.exists_mem_of_ne_nil _ h
    obtain ⟨c, hc, e⟩ := List.mem_filterMap.1 ha
    cases c with
    | call c => cases e
    | area a g => exact List.mem_filterMap.2 ⟨_, hc, rfl⟩

/-- **C117 (partial as C83).**  `osmjs -2 -m -l ... -j callback_test.js`: if GEOS throws an exception while a relation is
assembled, that is the result.  Otherwise the lines are `init`, three lines for each kind of object that is in the file,
and `end`; and among them there is one line `area` if there is an area, and none if there is none. -/
theorem callback_test_file_partial {S T : Type} {pos : IdStore S Position} {neg : IdStore T Position}
    {okp okn : List (Nat × Position) → Prop} {up un : Nat → Res Position} {unset : Position}
    (fp : Faithful pos okp up) (fn : Faithful neg okn un) (env : WholeEnv) (hsort : env.ringEnv.SortOk) (m : Meta)
    (ns : List Node) (ws : List Way) (rs : List Relation) (hd : DistinctObjects (fileOf ns ws rs))
    (hn : ∀ n ∈ ns, NegatableId n.obj.id) (hw : ∀ w ∈ ws, ∀ wn ∈ w.nodes, NegatableId wn.ref)
    (hokp : ∀ j, okp ((posOps (nodeCalls ns)).take j)) (hokn : ∀ j, okn ((negOps (nodeCalls ns)).take j))
    (hu : ∀ w ∈ ws, ∀ wn ∈ w.nodes, (∀ n ∈ ns, n.obj.id ≠ wn.ref) →
      (if 0 ≤ wn.ref then up wn.ref.toNat else un (-wn.ref).toNat) = .ok unset)
    (hnodes : ∀ w ∈ ws, w.nodes ≠ []) (hidw : ∀ w ∈ ws, SmallId w.obj.id) (hidr : ∀ r ∈ rs, SmallId r.obj.id)
    (hv : ∀ w ∈ ws, ∀ t ∈ w.obj.tags, t.value ≠ "")
    (s : Asm) (h1 : Asm.AfterPass1 mpCfg (protocol m (fileOf ns ws rs)) s) :
    ∃ ws', List.Forall₂ (LocatedBy ns unset) ws ws' ∧
      ((callbackTest env pos neg s (protocol m (fileOf ns ws rs)) = .error geosError ∧
          ∃ r ∈ rs, IsMultipolygon r ∧ HasItsWays ws' r ∧ buildWhole env r (wayMembers ws' r) = .error geosError) ∨
       ∃ names, callbackTest env pos neg s (protocol m (fileOf ns ws rs)) = .ok (ticked names) ∧
        names.filter (· ≠ "area") = "init" :: partNames ns "before_nodes" "node" "after_nodes" ++
          partNames ws "before_ways" "way" "after_ways" ++
          partNames rs "before_relations" "relation" "after_relations" ++ ["end"] ∧
        names.count "area" =
          if (∃ w ∈ ws', ¬ InMultipolygon rs w ∧ IsClosedArea w) ∨
            (∃ r ∈ rs, IsMultipolygon r ∧ HasItsWays ws' r ∧ areasOfRelation env ws' r ≠ []) then 1 else 0) := by
  obtain ⟨ws', hl, hx⟩ := multipolygons_file_partial fp fn env hsort m ns ws rs hd hn hw hokp hokn hu hnodes hidw hidr hv s h1
  refine ⟨ws', hl, ?_⟩
  rcases hx with ⟨e, hr⟩ | ⟨calls, e, -, ho, ha⟩
  · exact .inl ⟨by unfold callbackTest; rw [e], hr⟩
  · refine .inr ⟨firstOfKind (calls.filterMap tickName), ?_, ?_, ?_⟩
    · unfold callbackTest
      rw [e]
      exact callback_test_lines calls
    · rw [firstOfKind_filter, names_without_area, ho]
      have hb := hl.length_eq
      rw [protocol_names]
      have : partNames ws' "before_ways" "way" "after_ways" = partNames ws "before_ways" "way" "after_ways" := by
        unfold partNames
        cases ws <;> cases ws' <;> first | rfl | simp at hb
      rw [this]
    · rw [count_firstOfKind (by decide)]
      have : areasIn calls ≠ [] ↔ ((∃ w ∈ ws', ¬ InMultipolygon rs w ∧ IsClosedArea w) ∨
            (∃ r ∈ rs, IsMultipolygon r ∧ HasItsWays ws' r ∧ areasOfRelation env ws' r ≠ [])) := by
        rw [Ne, ← List.length_eq_zero_iff, ha.length_eq, List.length_eq_zero_iff, List.append_eq_nil_iff, not_and_or]
        refine or_congr ?_ ?_
        · rw [List.map_eq_nil_iff, List.filter_eq_nil_iff]
          simp only [Bool.and_eq_true, decide_eq_true_eq]
          push Not
          rfl
        · rw [List.flatMap_eq_nil_iff]
          simp only [List.mem_filter, Bool.and_eq_true, decide_eq_true_eq]
          push Not
          constructor
          · rintro ⟨r, ⟨h1, h2, h3⟩, h4⟩; exact ⟨r, h1, h2, h3, h4⟩
          · rintro ⟨r, h1, h2, h3, h4⟩; exact ⟨r, ⟨h1, h2, h3⟩, h4⟩
      by_cases hne : areasIn calls ≠ []
      · rw [if_pos ((area_name_mem calls).2 hne), if_pos (this.1 hne)]
      · rw [if_neg (mt (area_name_mem calls).1 hne), if_neg (mt this.2 hne)]

/-- The file of C114: ways and relations, and areas of both. -/
example : (callbackTest squareEnv pipeStore pipeStore landuseAsm landuseCalls).toOption =
    some (ticked ["init", "before_nodes", "node", "after_nodes", "before_ways", "way", "area", "after_ways",
      "before_relations", "relation", "after_relations", "end"]) := by
  decide +kernel

/-- The calls for the file twice, without areas: the objects are printed only once. -/
example : (callChain tickCall ⟨false, false, false, false, []⟩ ((landuseCalls ++ landuseCalls).map .call)).toOption.map
    (·.out) = some (ticked ["init", "before_nodes", "node", "after_nodes", "before_ways", "way", "after_ways",
      "before_relations", "relation", "after_relations", "end", "init", "before_nodes", "after_nodes", "before_ways",
      "after_ways", "before_relations", "after_relations", "end"]) := by
  decide +kernel

end Osmium
