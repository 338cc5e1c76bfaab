import Verif.Multipolygon.Pipeline

/-
C123: what the handler behind the multipolygon assembler has got when GEOS throws an exception in the second pass.
-/
namespace Osmium
open Spec

/-- multipolygon/assembler.hpp 60-115: the calls made for some events, up to the first exception, and this exception. -/
def wholeTrace (env : WholeEnv) : List AsmEvent → List WholeCall × Option Fail
  | [] => ([], none)
  | e :: es =>
    match wholeHook env e with
    | .error f => ([], some f)
    | .ok cs =>
      match wholeTrace env es with
      | (rest, f) => (cs ++ rest, f)

/-- osmjs/osmjs.cpp 247-254, examples/osmium_mpdump.cpp 76-86: the second pass call by call: what the handler behind the
assembler gets, and the exception that ends it.  Simplification: if the assembler itself fails (assertions), the hooks it
has called for this call of the reader are left out. -/
def secondTrace {S T : Type} (env : WholeEnv) (pos : IdStore S Position) (neg : IdStore T Position) :
    S × T → Asm → List Cb → List WholeCall × Option Fail
  | _, _, [] => ([], none)
  | st, s, c :: cs =>
    match cfwStep pos neg st c with
    | .error f => ([], some f)
    | .ok p =>
      match s.step mpCfg p.2 with
      | .error f => ([], some f)
      | .ok q =>
        match wholeTrace env q.2 with
        | (calls, some f) => (calls, some f)
        | (calls, none) =>
          match secondTrace env pos neg p.1 q.1 cs with
          | (rest, f) => (calls ++ rest, f)

namespace Spec

/-- The relation has all its ways when the way `w` comes, but not before. (specification, no counterpart in /repo) -/
def CompletedBy (ws : List Way) (w : Way) (r : Relation) : Prop := HasItsWays (ws ++ [w]) r ∧ ¬ HasItsWays ws r

instance (ws : List Way) (w : Way) (r : Relation) : Decidable (CompletedBy ws w r) := by
  unfold CompletedBy; infer_instance

end Spec

/-! ### The trace and the result of the second pass -/

theorem wholeTrace_cons (env : WholeEnv) (e : AsmEvent) (es : List AsmEvent) :
    wholeTrace env (e :: es) = match wholeHook env e with
      | .error f => ([], some f)
      | .ok cs => (cs ++ (wholeTrace env es).1, (wholeTrace env es).2) := rfl

theorem wholeTrace_append (env : WholeEnv) (a b : List AsmEvent) :
    wholeTrace env (a ++ b) = match wholeTrace env a with
      | (calls, some f) => (calls, some f)
      | (calls, none) => (calls ++ (wholeTrace env b).1, (wholeTrace env b).2) := by
  induction a with
  | nil => simp [wholeTrace]
  | cons e a ih =>
    rw [List.cons_append, wholeTrace_cons, wholeTrace_cons]
    cases wholeHook env e with
    | error f => rfl
    | ok cs =>
      simp only [ih]
      cases h : (wholeTrace env a).2 with
      | none =>
        have : wholeTrace env a = ((wholeTrace env a).1, none) := by rw [← h]
        rw [this]
        simp
      | some f =>
        have : wholeTrace env a = ((wholeTrace env a).1, some f) := by rw [← h]
        rw [this]

theorem secondTrace_eq {S T : Type} (env : WholeEnv) (pos : IdStore S Position) (neg : IdStore T Position)
    (calls : List Cb) : ∀ (st : S × T) (s s' : Asm) (out : List Cb) (ev : List AsmEvent),
      cfwRun pos neg st calls = .ok out → s.pass2 mpCfg out = .ok (s', ev) →
      secondTrace env pos neg st s calls = wholeTrace env ev := by
  induction calls with
  | nil =>
    intro st s s' out ev h1 h2
    cases h1
    cases h2
    rfl
  | cons c cs ih =>
    intro st s s' out ev h1 h2
    rw [cfwRun] at h1
    rw [secondTrace]
    cases hc : cfwStep pos neg st c with
    | error f => rw [hc] at h1; cases h1
    | ok p =>
      rw [hc] at h1
      cases hr : cfwRun pos neg p.1 cs with
      | error f => simp only [bind, Except.bind, hr] at h1; cases h1
      | ok out' =>
        simp only [bind, Except.bind, hr] at h1
        cases h1
        rw [Asm.pass2] at h2
        cases hs : s.step mpCfg p.2 with
        | error f => rw [hs] at h2; cases h2
        | ok q =>
          rw [hs] at h2
          cases hq : q.1.pass2 mpCfg out' with
          | error f => simp only [bind, Except.bind, hq] at h2; cases h2
          | ok x =>
            simp only [bind, Except.bind, hq] at h2
            cases h2
            simp only [hs]
            rw [wholeTrace_append, ih p.1 q.1 x.1 out' x.2 hr hq]

/-- A trace without exception is the result, and with an exception it ends at an event that fails. -/
theorem wholeTrace_cases (env : WholeEnv) (es : List AsmEvent) :
    (∃ pre e post f, es = pre ++ e :: post ∧ (∀ x ∈ pre, ∃ cs, wholeHook env x = .ok cs) ∧ wholeHook env e = .error f ∧
      wholeTrace env es = (pre.flatMap (fun x => (wholeHook env x).toOption.getD []), some f)) ∨
    ∃ calls, wholeTrace env es = (calls, none) ∧ wholeCalls env es = .ok calls := by
  induction es with
  | nil => exact .inr ⟨[], rfl, rfl⟩
  | cons e es ih =>
    rw [wholeTrace_cons, wholeCalls]
    cases h : wholeHook env e with
    | error f => exact .inl ⟨[], e, es, f, rfl, by simp, h, rfl⟩
    | ok cs =>
      rcases ih with ⟨pre, e', post, f, h1, h2, h3, h4⟩ | ⟨calls, h1, h2⟩
      · refine .inl ⟨e :: pre, e', post, f, by rw [h1]; rfl, ?_, h3, ?_⟩
        · intro x hx
          rcases List.mem_cons.1 hx with rfl | hx
          · exact ⟨cs, h⟩
          · exact h2 x hx
        · simp only [h4, List.flatMap_cons, h, Except.toOption, Option.getD_some]
      · refine .inr ⟨cs ++ calls, ?_, ?_⟩
        · simp only [h1]
        · simp only [h2]; rfl

/-! ### The call in which a relation is completed -/

theorem trace_split (cfg : AsmCfg) (rels : List Relation) (calls : List Cb) :
    ∀ (seen : List OsmObj) (left : Int) (pre post : List AsmEvent) (r : Relation) (ms : List (Option OsmObj)),
      Pass2Trace cfg rels seen left calls (pre ++ .complete r ms :: post) →
      ∃ calls1 o calls2 ev1 part rest, calls = calls1 ++ .obj o :: calls2 ∧ pre = ev1 ++ part ∧
        Pass2Trace cfg rels seen left calls1 ev1 ∧ cfg.enabled o.type = true ∧
        HooksFor cfg rels (seen ++ asmObjects cfg calls1) o (part ++ .complete r ms :: rest) := by
  induction calls with
  | nil =>
    intro seen left pre post r ms h
    have : pre ++ AsmEvent.complete r ms :: post = [] := h
    simp at this
  | cons c cs ih =>
    intro seen left pre post r ms h
    obtain ⟨es, rest, e, h⟩ := h
    rw [List.append_assoc] at e
    -- the event is one of this call or comes later
    have hwhere : (∃ x, es = pre ++ .complete r ms :: x) ∨
        ∃ pre', pre = es ++ .next c :: pre' ∧ rest = pre' ++ .complete r ms :: post := by
      rcases List.append_eq_append_iff.1 e with ⟨x, h1, h2⟩ | ⟨x, h1, h2⟩
      · cases x with
        | nil => simp at h2
        | cons y x =>
          simp only [List.cons_append, List.cons.injEq] at h2
          obtain ⟨rfl, -⟩ := h2
          exact .inl ⟨x, h1⟩
      · cases x with
        | nil => simp at h2
        | cons y x =>
          simp only [List.cons_append, List.nil_append, List.cons.injEq] at h2
          obtain ⟨rfl, h3⟩ := h2
          exact .inr ⟨x, h1, h3⟩
    rcases hwhere with ⟨x, rfl⟩ | ⟨pre', rfl, rfl⟩
    · -- in this call
      have none_ : pre ++ AsmEvent.complete r ms :: x ≠ [] := by simp
      cases c with
      | obj o =>
        simp only at h
        split at h
        · rename_i he
          refine ⟨[], o, cs, [], pre, x, rfl, rfl, rfl, he, ?_⟩
          simpa [asmObjects] using h.1
        · exact absurd h.1 none_
      | after t =>
        simp only at h
        split at h
        · have := h.1
          split at this
          · cases pre with
            | nil => simp at this
            | cons p pre => simp at this
          · exact absurd this none_
        · exact absurd h.1 none_
      | init m => exact absurd h.1 none_
      | before t => exact absurd h.1 none_
      | final => exact absurd h.1 none_
    · have quiet : ∀ l, Pass2Trace cfg rels seen l cs (pre' ++ .complete r ms :: post) →
          asmObjects cfg [c] = [] →
          (∀ calls1 ev1, Pass2Trace cfg rels seen l calls1 ev1 →
            Pass2Trace cfg rels seen left (c :: calls1) (es ++ [.next c] ++ ev1)) →
          ∃ calls1 o calls2 ev1 part rest, c :: cs = calls1 ++ .obj o :: calls2 ∧ es ++ .next c :: pre' = ev1 ++ part ∧
            Pass2Trace cfg rels seen left calls1 ev1 ∧ cfg.enabled o.type = true ∧
            HooksFor cfg rels (seen ++ asmObjects cfg calls1) o (part ++ .complete r ms :: rest) := by
        intro l h1 h2 h3
        obtain ⟨calls1, o, calls2, ev1, part, rest, k1, k2, k3, k4, k5⟩ := ih seen l pre' post r ms h1
        refine ⟨c :: calls1, o, calls2, es ++ [.next c] ++ ev1, part, rest, by rw [k1]; rfl, by rw [k2]; simp,
          h3 _ _ k3, k4, ?_⟩
        have : asmObjects cfg (c :: calls1) = asmObjects cfg calls1 := by
          show asmObjects cfg ([c] ++ calls1) = _
          unfold asmObjects at h2 ⊢
          rw [List.filterMap_append, h2]
          rfl
        rw [this]
        exact k5
      cases c with
      | obj o =>
        simp only at h
        split at h
        · rename_i he
          obtain ⟨h1, h2⟩ := h
          obtain ⟨calls1, o', calls2, ev1, part, rest, k1, k2, k3, k4, k5⟩ := ih _ _ pre' post r ms h2
          refine ⟨.obj o :: calls1, o', calls2, es ++ [.next (.obj o)] ++ ev1, part, rest, by rw [k1]; rfl,
            by rw [k2]; simp, ?_, k4, ?_⟩
          · refine ⟨es, ev1, rfl, ?_⟩
            simp only [he, if_true]
            exact ⟨h1, k3⟩
          · have : asmObjects cfg (.obj o :: calls1) = o :: asmObjects cfg calls1 := by
              simp [asmObjects, he]
            rw [this]
            simpa using k5
        · rename_i he
          obtain ⟨rfl, h2⟩ := h
          refine quiet left h2 (by simp [asmObjects, he]) ?_
          intro calls1 ev1 k
          refine ⟨[], ev1, rfl, ?_⟩
          show if _ then _ else _
          rw [if_neg he]
          exact ⟨rfl, k⟩
      | after t =>
        simp only at h
        split at h
        · rename_i he
          obtain ⟨h1, h2⟩ := h
          refine quiet (left - 1) h2 (by simp [asmObjects]) ?_
          intro calls1 ev1 k
          refine ⟨es, ev1, rfl, ?_⟩
          simp only [he, if_true]
          exact ⟨h1, k⟩
        · rename_i he
          obtain ⟨rfl, h2⟩ := h
          refine quiet left h2 (by simp [asmObjects]) ?_
          intro calls1 ev1 k
          refine ⟨[], ev1, rfl, ?_⟩
          show if _ then _ else _
          rw [if_neg he]
          exact ⟨rfl, k⟩
      | init m =>
        obtain ⟨rfl, h2⟩ := h
        exact quiet left h2 (by simp [asmObjects]) fun calls1 ev1 k => ⟨[], ev1, rfl, rfl, k⟩
      | before t =>
        obtain ⟨rfl, h2⟩ := h
        exact quiet left h2 (by simp [asmObjects]) fun calls1 ev1 k => ⟨[], ev1, rfl, rfl, k⟩
      | final =>
        obtain ⟨rfl, h2⟩ := h
        exact quiet left h2 (by simp [asmObjects]) fun calls1 ev1 k => ⟨[], ev1, rfl, rfl, k⟩

/-! ### Where in the file -/

theorem split_skip {α : Type} {a b : List α} {x : α} (h : x ∉ a) {c d : List α} (e : a ++ b = c ++ x :: d) :
    ∃ c', c = a ++ c' ∧ b = c' ++ x :: d := by
  rcases List.append_eq_append_iff.1 e with ⟨c', h1, h2⟩ | ⟨c', h1, h2⟩
  · exact ⟨c', h1, h2⟩
  · cases c' with
    | nil => exact ⟨[], by simpa using h1.symm, by simpa using h2.symm⟩
    | cons y c' =>
      simp only [List.cons_append, List.cons.injEq] at h2
      obtain ⟨rfl, -⟩ := h2
      exact absurd (by rw [h1]; simp) h

theorem split_here {α : Type} {a b : List α} {x : α} (h : x ∉ b) {c d : List α} (e : a ++ b = c ++ x :: d) :
    ∃ d', a = c ++ x :: d' := by
  rcases List.append_eq_append_iff.1 e with ⟨c', h1, h2⟩ | ⟨c', h1, h2⟩
  · exact absurd (by rw [h2]; simp) h
  · cases c' with
    | nil =>
      rw [List.nil_append] at h2
      exact absurd (by rw [← h2]; simp) h
    | cons y c' =>
      simp only [List.cons_append, List.cons.injEq] at h2
      obtain ⟨rfl, -⟩ := h2
      exact ⟨c', h1⟩

/-- What comes before a way of a file. -/
theorem calls_before_way (m : Meta) (ns : List Node) (ws : List Way) (rs : List Relation) (o : OsmObj)
    (ho : o.type = .way) (a b : List Cb) (e : protocol m (fileOf ns ws rs) = a ++ .obj o :: b) :
    ∃ ws1 w ws2, ws = ws1 ++ w :: ws2 ∧ o = .way w ∧
      a = Cb.init m :: runCalls (ns.map OsmObj.node) ++ Cb.before .way :: ws1.map fun v => Cb.obj (.way v) := by
  rw [protocol_fileOf] at e
  obtain ⟨v, rfl⟩ : ∃ v, o = .way v := by
    cases o with
    | way v => exact ⟨v, rfl⟩
    | node v => cases ho
    | relation v => cases ho
  have hno1 : Cb.obj (.way v) ∉ Cb.init m :: runCalls (ns.map OsmObj.node) := by
    intro h
    rcases List.mem_cons.1 h with h | h
    · cases h
    · exact no_way_runCalls fileOf_nodes (by decide) v h
  have hno2 : Cb.obj (.way v) ∉ runCalls (rs.map OsmObj.relation) ++ [Cb.final] := by
    intro h
    rcases List.mem_append.1 h with h | h
    · exact no_way_runCalls fileOf_relations (by decide) v h
    · simp at h
  obtain ⟨a1, rfl, e2⟩ := split_skip hno1 e
  clear e
  obtain ⟨b1, e⟩ := split_here hno2 e2
  clear e2
  cases ws with
  | nil => simp [runCalls] at e
  | cons w0 ws0 =>
    have e0 : runCalls ((w0 :: ws0).map OsmObj.way) =
        [Cb.before .way] ++ ((w0 :: ws0).map (fun v => Cb.obj (.way v)) ++ [Cb.after .way]) := by
      simp [runCalls, OsmObj.type]
    rw [e0] at e
    obtain ⟨a2, rfl, e2⟩ := split_skip (by simp) e
    clear e
    obtain ⟨b2, e⟩ := split_here (by simp) e2
    obtain ⟨l1, l2, h1, h2, h3⟩ := List.map_eq_append_iff.1 e
    cases l2 with
    | nil => cases h3
    | cons w l2 =>
      simp only [List.map_cons, List.cons.injEq, Cb.obj.injEq] at h3
      refine ⟨l1, w, l2, h1, h3.1.symm, ?_⟩
      rw [← h2]
      simp

theorem asmObjects_before (m : Meta) (ns : List Node) (ws : List Way) :
    asmObjects mpCfg (Cb.init m :: runCalls (ns.map OsmObj.node) ++ Cb.before .way :: ws.map fun v => Cb.obj (.way v)) =
      ws.map OsmObj.way := by
  have happ : ∀ a b, asmObjects mpCfg (a ++ b) = asmObjects mpCfg a ++ asmObjects mpCfg b := by
    intro a b
    unfold asmObjects
    rw [List.filterMap_append]
  have h1 : asmObjects mpCfg (Cb.init m :: runCalls (ns.map OsmObj.node)) = [] := by
    unfold asmObjects
    rw [List.filterMap_eq_nil_iff]
    intro c hc
    rcases List.mem_cons.1 hc with rfl | hc
    · rfl
    · rcases mem_runCalls fileOf_nodes hc with rfl | rfl | ⟨o, ho, rfl⟩
      · rfl
      · rfl
      · simp only [fileOf_nodes o ho]
        rfl
  have h2 : ∀ ws : List Way, asmObjects mpCfg (ws.map fun v => Cb.obj (.way v)) = ws.map OsmObj.way := by
    intro ws
    induction ws with
    | nil => rfl
    | cons w ws ih =>
      rw [List.map_cons, List.map_cons, ← ih]
      rfl
  rw [happ, h1, List.nil_append, ← h2 ws]
  rfl

theorem hasItsWays_mono {ws : List Way} {r : Relation} (h : HasItsWays ws r) (more : List Way) :
    HasItsWays (ws ++ more) r :=
  ⟨h.1, fun m hm ht => by
    obtain ⟨w, hw, e⟩ := h.2 m hm ht
    exact ⟨w, by simp [hw], e⟩⟩

theorem wayMembers_mono {ws : List Way} {r : Relation} (h : HasItsWays ws r) (more : List Way) :
    wayMembers (ws ++ more) r = wayMembers ws r := by
  unfold wayMembers
  apply List.map_congr_left
  intro m hm
  split
  · rename_i ht
    obtain ⟨w, hw, e⟩ := h.2 m hm ht
    rw [List.find?_append]
    cases hf : ws.find? (fun w => decide (w.obj.id = m.ref)) with
    | none => rw [List.find?_eq_none] at hf; exact absurd (by simpa using e) (hf w hw)
    | some x => rfl
  · rfl

theorem map_of_forall {α β : Type} (F : α → β) (l : List β) (h : ∀ x ∈ l, ∃ a, x = F a) : ∃ l' : List α, l = l'.map F := by
  induction l with
  | nil => exact ⟨[], rfl⟩
  | cons x l ih =>
    obtain ⟨a, rfl⟩ := h x (by simp)
    obtain ⟨l', rfl⟩ := ih fun y hy => h y (by simp [hy])
    exact ⟨a :: l', rfl⟩

/-- The hooks for a way that completes a relation. -/
theorem hooks_split (rels : List Relation) (ws1 : List Way) (w : Way) (part rest : List AsmEvent) (r : Relation)
    (ms : List (Option OsmObj))
    (h : HooksFor mpCfg rels (ws1.map OsmObj.way) (.way w) (part ++ .complete r ms :: rest)) :
    ∃ rs1 rs2, (rs1 ++ r :: rs2).Perm (rels.filter fun r => CompletedBy ws1 w r) ∧
      ms = slots mpCfg ((ws1 ++ [w]).map OsmObj.way) r ∧
      part = rs1.map fun r => .complete r (slots mpCfg ((ws1 ++ [w]).map OsmObj.way) r) := by
  unfold HooksFor at h
  split at h
  · have e1 : ws1.map OsmObj.way ++ [OsmObj.way w] = (ws1 ++ [w]).map OsmObj.way := by simp
    have e2 : (rels.filter fun r => decide (Completable mpCfg (ws1.map OsmObj.way ++ [OsmObj.way w]) r ∧
        ¬ Completable mpCfg (ws1.map OsmObj.way) r)) = rels.filter fun r => decide (CompletedBy ws1 w r) := by
      apply List.filter_congr
      intro r _
      rw [e1, decide_eq_decide, completable_ways, completable_ways]
      exact Iff.rfl
    rw [e2, e1] at h
    generalize hF : (fun r : Relation => AsmEvent.complete r (slots mpCfg ((ws1 ++ [w]).map OsmObj.way) r)) = F at h
    obtain ⟨l, hl⟩ := map_of_forall F (part ++ .complete r ms :: rest) (by
      intro x hx
      obtain ⟨a, -, rfl⟩ := List.mem_map.1 (h.subset hx)
      exact ⟨a, rfl⟩)
    have hperm : l.Perm (rels.filter fun r => decide (CompletedBy ws1 w r)) := by
      rw [hl] at h
      have hc : ∀ k : List Relation, (completions (k.map F)).map Prod.fst = k := by
        intro k
        subst hF
        unfold completions
        rw [List.filterMap_map, List.map_filterMap]
        simp
      have := ((h.filterMap (fun e => match e with | .complete r ms => some (r, ms) | _ => none)).map Prod.fst)
      change (List.map Prod.fst (completions _)).Perm (List.map Prod.fst (completions _)) at this
      rwa [hc, hc] at this
    obtain ⟨l1, l2, rfl, h2, h3⟩ := List.map_eq_append_iff.1 hl.symm
    cases l2 with
    | nil => cases h3
    | cons r' l2 =>
      subst hF
      simp only [List.map_cons, List.cons.injEq, AsmEvent.complete.injEq] at h3
      obtain ⟨⟨rfl, h4⟩, -⟩ := h3
      exact ⟨l1, l2, hperm, h4.symm, h2.symm⟩
  · have : AsmEvent.complete r ms ∈ [AsmEvent.notInAny (.way w)] := by rw [← h]; simp
    simp at this

/-- The events behind `areas_before_exception_partial` (C123). -/
theorem interrupted_events {S T : Type} {pos : IdStore S Position} {neg : IdStore T Position}
    {okp okn : List (Nat × Position) → Prop} {up un : Nat → Res Position} {unset : Position}
    (fp : Faithful pos okp up) (fn : Faithful neg okn un) (env : WholeEnv) (hsort : env.ringEnv.SortOk) (m : Meta)
    (ns : List Node) (ws : List Way) (rs : List Relation) (hd : DistinctObjects (fileOf ns ws rs))
    (hn : ∀ n ∈ ns, NegatableId n.obj.id) (hw : ∀ w ∈ ws, ∀ wn ∈ w.nodes, NegatableId wn.ref)
    (hokp : ∀ j, okp ((posOps (nodeCalls ns)).take j)) (hokn : ∀ j, okn ((negOps (nodeCalls ns)).take j))
    (hu : ∀ w ∈ ws, ∀ wn ∈ w.nodes, (∀ n ∈ ns, n.obj.id ≠ wn.ref) →
      (if 0 ≤ wn.ref then up wn.ref.toNat else un (-wn.ref).toNat) = .ok unset)
    (hnodes : ∀ w ∈ ws, w.nodes ≠ []) (hidw : ∀ w ∈ ws, SmallId w.obj.id) (hidr : ∀ r ∈ rs, SmallId r.obj.id)
    (hv : ∀ w ∈ ws, ∀ t ∈ w.obj.tags, t.value ≠ "")
    (s : Asm) (h1 : Asm.AfterPass1 mpCfg (protocol m (fileOf ns ws rs)) s) :
    ∃ ws' s' ev, List.Forall₂ (LocatedBy ns unset) ws ws' ∧
      cfwRun pos neg (pos.empty, neg.empty) (protocol m (fileOf ns ws rs)) = .ok (protocol m (fileOf ns ws' rs)) ∧
      s.pass2 mpCfg (protocol m (fileOf ns ws' rs)) = .ok (s', ev) ∧
      ((∃ calls, secondPass env pos neg s (protocol m (fileOf ns ws rs)) = .ok calls ∧
          secondTrace env pos neg (pos.empty, neg.empty) s (protocol m (fileOf ns ws rs)) = (calls, none)) ∨
       ∃ ws1 w ws2 rs1 r rs2 calls, secondPass env pos neg s (protocol m (fileOf ns ws rs)) = .error geosError ∧
          secondTrace env pos neg (pos.empty, neg.empty) s (protocol m (fileOf ns ws rs)) = (calls, some geosError) ∧
          ws' = ws1 ++ w :: ws2 ∧
          (rs1 ++ r :: rs2).Perm (rs.filter fun r => decide (IsMultipolygon r) && decide (CompletedBy ws1 w r)) ∧
          buildWhole env r (wayMembers ws' r) = .error geosError ∧
          (∀ x ∈ (rs.filter fun r => decide (IsMultipolygon r) && decide (HasItsWays ws1 r)) ++ rs1,
            ∃ as, buildWhole env x (wayMembers ws' x) = .ok as) ∧
          otherCalls calls = Cb.init m :: runCalls (ns.map OsmObj.node) ++
            Cb.before .way :: ws1.map (fun v => Cb.obj (.way v)) ∧
          (areasIn calls).Perm
            ((ws1.filter fun w => decide (¬ InMultipolygon rs w) && decide (IsClosedArea w)).map areaOfWay ++
             ((rs.filter fun r => decide (IsMultipolygon r) && decide (HasItsWays ws1 r)) ++ rs1).flatMap
              (areasOfRelation env ws')) ∧
          ∃ ms pre post, ev = pre ++ .complete r ms :: post ∧ (∀ e ∈ pre, ∃ cs, wholeHook env e = .ok cs) ∧
            wholeHook env (.complete r ms) = .error geosError ∧
            ((completions pre).map Prod.fst).Perm
              ((rs.filter fun r => decide (IsMultipolygon r) && decide (HasItsWays ws1 r)) ++ rs1) ∧
            ∀ p ∈ completions pre, memberWays p.2 = .ok (wayMembers ws' p.1)) := by
  obtain ⟨ws', hl, hcfw⟩ := coordinates_file fp fn m ns ws rs (distinct_nodes hd) hn hw hokp hokn hu
  have hback : ∀ w' ∈ ws', ∃ w ∈ ws, w.obj = w'.obj ∧ LocatedBy ns unset w w' := by
    intro w' hw'
    obtain ⟨i, hi, rfl⟩ := List.getElem_of_mem hw'
    have hlen := hl.length_eq
    refine ⟨ws[i]'(by omega), List.getElem_mem _, ?_⟩
    have := hl.get (i := i) (by omega) hi
    simp only [List.get_eq_getElem] at this
    exact ⟨this.1.symm, this⟩
  have hnodes' : ∀ w ∈ ws', w.nodes ≠ [] := by
    intro w hw'
    obtain ⟨v, hv1, -, hv2⟩ := hback w hw'
    intro h
    have := located_refs hv2
    rw [h] at this
    exact hnodes v hv1 (by simpa using this.symm)
  have hidw' : ∀ w ∈ ws', SmallId w.obj.id := by
    intro w hw'
    obtain ⟨v, hv1, e, -⟩ := hback w hw'
    rw [← e]; exact hidw v hv1
  have hv' : ∀ w ∈ ws', ∀ t ∈ w.obj.tags, t.value ≠ "" := by
    intro w hw'
    obtain ⟨v, hv1, e, -⟩ := hback w hw'
    rw [← e]; exact hv v hv1
  have hd' := distinct_located hl hd
  have h1' := pass1_located m ns ws ws' rs unset hl s h1
  -- the events
  obtain ⟨hrel, hend⟩ := asmRelations_file mpCfg m (ns.map OsmObj.node) (ws'.map OsmObj.way) rs fileOf_nodes fileOf_ways
  change asmRelations mpCfg (protocol m (fileOf ns ws' rs)) = _ at hrel
  change _ → Cb.after .relation ∈ protocol m (fileOf ns ws' rs) at hend
  have hobj : asmObjects mpCfg (protocol m (fileOf ns ws' rs)) = ws'.map OsmObj.way := by
    rw [asmObjects_eq]
    have := objects_file m _ _ _ (fileOf_nodes (ns := ns)) (fileOf_ways (ws := ws')) (fileOf_relations (rs := rs))
    change objects (protocol m (fileOf ns ws' rs)) = fileOf ns ws' rs at this
    rw [this, read_file]
  have hb : OneBlockEach (protocol m (fileOf ns ws' rs)) :=
    oneBlock_file m _ _ _ (fileOf_nodes (ns := ns)) (fileOf_ways (ws := ws')) (fileOf_relations (rs := rs))
  have hdd : DistinctObjects (asmObjects mpCfg (protocol m (fileOf ns ws' rs))) := by
    rw [hobj, ← read_file ns ws' rs]
    exact List.Pairwise.sublist List.filter_sublist hd'
  obtain ⟨s', ev, hrun, htr⟩ := assembler_trace_partial mpCfg _ _ s h1' (by
    intro hne
    apply hend
    rintro rfl
    rw [hrel] at hne
    exact hne rfl) hdd hb
  rw [hrel] at htr
  refine ⟨ws', s', ev, hl, hcfw, hrun, ?_⟩
  have hsecond : secondPass env pos neg s (protocol m (fileOf ns ws rs)) = wholeCalls env ev := by
    unfold secondPass
    rw [hcfw]
    simp only [hrun]
  have htrace : secondTrace env pos neg (pos.empty, neg.empty) s (protocol m (fileOf ns ws rs)) = wholeTrace env ev :=
    secondTrace_eq env pos neg _ _ s s' _ ev hcfw hrun
  rw [hsecond, htrace]
  have hwayhook : ∀ w ∈ ws', wholeHook env (.notInAny (.way w)) =
      .ok (if IsClosedArea w then [.area (areaOfWay w).1 none] else []) := by
    intro w hw'
    simp only [wholeHook]
    rw [wayArea_spec w (hnodes' w hw') (hidw' w hw')]
    simp only [Except.map]
    split <;> rfl
  have hsum := trace_summary mpCfg _ _ _ _ _ htr
  have hacc : (rs.filter mpCfg.accept) = rs.filter fun r => decide (IsMultipolygon r) := by
    apply List.filter_congr
    intro r _
    have := mp_accept_iff r
    by_cases h : IsMultipolygon r
    · simp [h, this.2 h]
    · have : mpCfg.accept r = false := by
        cases hc : mpCfg.accept r with
        | false => rfl
        | true => exact absurd (this.1 hc) h
      simp [h, this]
  have hnone : ∀ r, ¬ Completable mpCfg [] r := by
    intro r h
    have := (completable_ways [] r).1 h
    obtain ⟨⟨m, hm, ht⟩, h2⟩ := this
    obtain ⟨w, hw, -⟩ := h2 m hm ht
    simp at hw
  rcases wholeTrace_cases env ev with ⟨pre, e, post, f, g1, g2, g3, g4⟩ | ⟨calls, g1, g2⟩
  · right
    subst g1
    -- the event that fails completes a relation
    obtain ⟨r, ms, rfl⟩ : ∃ r ms, e = .complete r ms := by
      cases e with
      | next c => cases g3
      | allAvailable => cases g3
      | complete r ms => exact ⟨r, ms, rfl⟩
      | notInAny o =>
        have hmem : o ∈ notInAnys (pre ++ AsmEvent.notInAny o :: post) := List.mem_filterMap.2 ⟨.notInAny o, by simp, rfl⟩
        rw [hsum.2.1, hobj] at hmem
        obtain ⟨w, hw', rfl⟩ := List.mem_map.1 (List.mem_of_mem_filter hmem)
        rw [hwayhook w hw'] at g3
        cases g3
    obtain ⟨calls1, o, calls2, ev1, part, rest, k1, rfl, k3, k4, k5⟩ := trace_split mpCfg _ _ _ _ _ _ _ _ htr
    have ho : o.type = .way := by simpa [mpCfg] using k4
    obtain ⟨ws1, w, ws2, rfl, rfl, rfl⟩ := calls_before_way m ns ws' rs o ho calls1 calls2 k1
    rw [List.nil_append, asmObjects_before] at k5
    obtain ⟨rs1, rs2, p1, rfl, rfl⟩ := hooks_split _ ws1 w part rest r ms k5
    have hsum1 := trace_summary mpCfg _ _ _ _ _ k3
    rw [List.nil_append, asmObjects_before] at hsum1
    obtain ⟨q1, q2, q3⟩ := hsum1
    -- the relations in question
    rw [hacc, List.filter_filter] at p1
    have p1' : (rs1 ++ r :: rs2).Perm (rs.filter fun r => decide (IsMultipolygon r) && decide (CompletedBy ws1 w r)) := by
      refine p1.trans (List.Perm.of_eq ?_)
      apply List.filter_congr
      intro r _
      rw [Bool.and_comm]
    have hq1 : (completions ev1).Perm ((rs.filter fun r => decide (IsMultipolygon r) && decide (HasItsWays ws1 r)).map
        fun r => (r, slots mpCfg (ws1.map OsmObj.way) r)) := by
      refine q1.trans (List.Perm.of_eq ?_)
      rw [hacc, List.filter_filter]
      congr 1
      apply List.filter_congr
      intro r _
      rw [Bool.and_comm]
      congr 1
      rw [decide_eq_decide, completable_ways]
      exact ⟨fun h => h.1, fun h => ⟨h, hnone r⟩⟩
    have hnow : ∀ x ∈ rs1 ++ r :: rs2, x ∈ rs ∧ wholeHook env
        (.complete x (slots mpCfg ((ws1 ++ [w]).map OsmObj.way) x)) =
          (buildWhole env x (wayMembers (ws1 ++ w :: ws2) x)).map fun as => as.map fun a => WholeCall.area a.1 a.2 := by
      intro x hx
      have := p1'.subset hx
      simp only [List.mem_filter, Bool.and_eq_true, decide_eq_true_eq] at this
      refine ⟨this.1, ?_⟩
      simp only [wholeHook]
      rw [memberWays_file]
      have e : ws1 ++ w :: ws2 = ws1 ++ [w] ++ ws2 := by simp
      rw [e, wayMembers_mono this.2.2.1]
    have hold : ∀ x ∈ rs.filter (fun r => decide (IsMultipolygon r) && decide (HasItsWays ws1 r)), wholeHook env
        (.complete x (slots mpCfg (ws1.map OsmObj.way) x)) =
          (buildWhole env x (wayMembers (ws1 ++ w :: ws2) x)).map fun as => as.map fun a => WholeCall.area a.1 a.2 := by
      intro x hx
      simp only [List.mem_filter, Bool.and_eq_true, decide_eq_true_eq] at hx
      simp only [wholeHook]
      rw [memberWays_file, wayMembers_mono hx.2.2]
    -- the error
    obtain ⟨hr1, hr2⟩ := hnow r (by simp)
    rw [hr2] at g3
    have hbad : buildWhole env r (wayMembers (ws1 ++ w :: ws2) r) = .error geosError ∧ f = geosError := by
      rcases buildWhole_cases env hsort r (wayMembers (ws1 ++ w :: ws2) r) (hidr r hr1)
        (fun w hw' => hidw' w (wayMembers_mem hw')) (fun w hw' => hv' w (wayMembers_mem hw')) with ⟨as, ha⟩ | ha
      · rw [ha] at g3; cases g3
      · rw [ha] at g3
        cases g3
        exact ⟨ha, rfl⟩
    obtain ⟨hbad, rfl⟩ := hbad
    have hok_of : ∀ (x : Relation) (ms : List (Option OsmObj)) (b : Res (List (Area × Option Geom))),
        wholeHook env (.complete x ms) = b.map (fun as => as.map fun a => WholeCall.area a.1 a.2) →
        AsmEvent.complete x ms ∈ ev1 ++ rs1.map (fun r => AsmEvent.complete r (slots mpCfg ((ws1 ++ [w]).map OsmObj.way) r)) →
        ∃ as, b = .ok as := by
      intro x ms b hh hm
      obtain ⟨cs, hcs⟩ := g2 _ hm
      rw [hh] at hcs
      cases b with
      | ok as => exact ⟨as, rfl⟩
      | error f => cases hcs
    have hok : ∀ x ∈ (rs.filter fun r => decide (IsMultipolygon r) && decide (HasItsWays ws1 r)) ++ rs1,
        ∃ as, buildWhole env x (wayMembers (ws1 ++ w :: ws2) x) = .ok as := by
      intro x hx
      rcases List.mem_append.1 hx with hx | hx
      · refine hok_of x _ _ (hold x hx) (List.mem_append_left _ ?_)
        have : (x, slots mpCfg (ws1.map OsmObj.way) x) ∈ completions ev1 :=
          hq1.symm.subset (List.mem_map.2 ⟨x, hx, rfl⟩)
        obtain ⟨e, he, e'⟩ := List.mem_filterMap.1 this
        cases e with
        | complete r2 ms2 => cases e'; exact he
        | notInAny o => cases e'
        | allAvailable => cases e'
        | next c => cases e'
      · exact hok_of x _ _ (hnow x (by simp [hx])).2 (List.mem_append_right _ (List.mem_map.2 ⟨x, hx, rfl⟩))
    have harea : ∀ (x : Relation) (ms : List (Option OsmObj)),
        wholeHook env (.complete x ms) =
          (buildWhole env x (wayMembers (ws1 ++ w :: ws2) x)).map (fun as => as.map fun a => WholeCall.area a.1 a.2) →
        (∃ as, buildWhole env x (wayMembers (ws1 ++ w :: ws2) x) = .ok as) →
        areasIn ((wholeHook env (.complete x ms)).toOption.getD []) = areasOfRelation env (ws1 ++ w :: ws2) x := by
      rintro x ms hh ⟨as, ha⟩
      simp only [hh, areasOfRelation, ha, Except.map, Except.toOption, Option.getD_some, areasIn, List.filterMap_map]
      simp
    refine ⟨ws1, w, ws2, rs1, r, rs2, _, ?_, g4, rfl, p1', hbad, hok, ?_, ?_, _, _, post, rfl, g2, by rw [hr2, hbad]; rfl,
      ?_, ?_⟩
    · rcases wholeCalls_cases env (ev1 ++ rs1.map
        (fun r => AsmEvent.complete r (slots mpCfg ((ws1 ++ [w]).map OsmObj.way) r)) ++
        .complete r (slots mpCfg ((ws1 ++ [w]).map OsmObj.way) r) :: post) with ⟨e, he, f, z1, z2⟩ | ⟨z1, -⟩
      · have first : ∀ (l : List AsmEvent) (e : AsmEvent) (l2 : List AsmEvent),
            (∀ x ∈ l, ∃ cs, wholeHook env x = .ok cs) → wholeHook env e = .error geosError →
            wholeCalls env (l ++ e :: l2) = .error geosError := by
          intro l e l2 hl he
          induction l with
          | nil => simp only [List.nil_append, wholeCalls, he]
          | cons x l ih =>
            obtain ⟨cs, hcs⟩ := hl x (by simp)
            simp only [List.cons_append, wholeCalls, hcs]
            rw [ih fun y hy => hl y (by simp [hy])]
            rfl
        exact first _ _ _ g2 (by rw [hr2, hbad]; rfl)
      · obtain ⟨cs, hcs⟩ := z1 (.complete r (slots mpCfg ((ws1 ++ [w]).map OsmObj.way) r)) (by simp)
        rw [hr2, hbad] at hcs
        cases hcs
    · rw [otherCalls_hooks]
      have : nextCalls (ev1 ++ rs1.map
          (fun r => AsmEvent.complete r (slots mpCfg ((ws1 ++ [w]).map OsmObj.way) r))) = nextCalls ev1 := by
        unfold nextCalls
        rw [List.filterMap_append, List.filterMap_map]
        simp
      rw [this, q3]
    · rw [areasIn_flatMap, List.flatMap_append, List.flatMap_append, ← List.append_assoc]
      refine List.Perm.append ?_ ?_
      · refine (hooks_perm (fun e => areasIn ((wholeHook env e).toOption.getD [])) rfl (fun _ => rfl) ev1).trans ?_
        refine List.Perm.append ?_ ?_
        · refine List.Perm.of_eq ?_
          rw [q2, List.filter_map, List.flatMap_map]
          have hfm := flatMap_filter_if (fun w => decide (¬ InMultipolygon rs w)) (fun w => decide (IsClosedArea w))
            (fun w => areasIn ((wholeHook env (.notInAny (.way w))).toOption.getD [])) areaOfWay ws1 (by
              intro w hw'
              simp only [hwayhook w (by simp [hw']), decide_eq_true_eq]
              split <;> rfl)
          rw [← hfm]
          congr 1
          apply List.filter_congr
          intro w _
          simp only [Function.comp, mp_referenced_iff]
        · refine (hq1.flatMap_right _).trans (List.Perm.of_eq ?_)
          rw [List.flatMap_map]
          apply List.flatMap_congr
          intro x hx
          exact harea x _ (hold x hx) (hok x (List.mem_append_left _ hx))
      · refine List.Perm.of_eq ?_
        rw [List.flatMap_map]
        apply List.flatMap_congr
        intro x hx
        exact harea x _ (hnow x (by simp [hx])).2 (hok x (List.mem_append_right _ hx))
    · unfold completions
      rw [List.filterMap_append, List.map_append]
      refine List.Perm.append ?_ (List.Perm.of_eq ?_)
      · refine (hq1.map Prod.fst).trans (List.Perm.of_eq ?_)
        rw [List.map_map]
        exact List.map_id _
      · rw [List.filterMap_map, List.map_filterMap]
        simp
    · intro p hp
      unfold completions at hp
      rw [List.filterMap_append] at hp
      rcases List.mem_append.1 hp with hp | hp
      · obtain ⟨x, hx, rfl⟩ := List.mem_map.1 (hq1.subset hp)
        simp only [List.mem_filter, Bool.and_eq_true, decide_eq_true_eq] at hx
        simp only [memberWays_file]
        rw [wayMembers_mono hx.2.2]
      · rw [List.filterMap_map] at hp
        obtain ⟨x, hx, e⟩ := List.mem_filterMap.1 hp
        simp only [Function.comp, Option.some.injEq] at e
        subst e
        have := p1'.subset (show x ∈ rs1 ++ r :: rs2 by simp [hx])
        simp only [List.mem_filter, Bool.and_eq_true, decide_eq_true_eq] at this
        have e : ws1 ++ w :: ws2 = ws1 ++ [w] ++ ws2 := by simp
        simp only [memberWays_file]
        rw [e, wayMembers_mono this.2.2.1]
  · exact .inl ⟨calls, g2, g1⟩

/-- **C123** (partial: files as in C83).  For every file read twice with the multipolygon assembler, with any faithful
location stores and whatever GEOS says: either the second pass has a result, which is all the handler got; or an
exception of GEOS ends it.  In this case there is a way `w` with which relations get their last missing way, and the
exception came from one of these, `r`.  Before it, the handler has got all the nodes and the ways up to `w`, but not
`w`; the areas of all closed ways of these that are not members; the areas of all multipolygon relations that had their
ways before `w`; and the areas of those relations completed by `w` that were treated before `r`.  No other areas, each
of these once, and each with what it has in a run without exception. -/
theorem areas_before_exception_partial {S T : Type} {pos : IdStore S Position} {neg : IdStore T Position}
    {okp okn : List (Nat × Position) → Prop} {up un : Nat → Res Position} {unset : Position}
    (fp : Faithful pos okp up) (fn : Faithful neg okn un) (env : WholeEnv) (hsort : env.ringEnv.SortOk) (m : Meta)
    (ns : List Node) (ws : List Way) (rs : List Relation) (hd : DistinctObjects (fileOf ns ws rs))
    (hn : ∀ n ∈ ns, NegatableId n.obj.id) (hw : ∀ w ∈ ws, ∀ wn ∈ w.nodes, NegatableId wn.ref)
    (hokp : ∀ j, okp ((posOps (nodeCalls ns)).take j)) (hokn : ∀ j, okn ((negOps (nodeCalls ns)).take j))
    (hu : ∀ w ∈ ws, ∀ wn ∈ w.nodes, (∀ n ∈ ns, n.obj.id ≠ wn.ref) →
      (if 0 ≤ wn.ref then up wn.ref.toNat else un (-wn.ref).toNat) = .ok unset)
    (hnodes : ∀ w ∈ ws, w.nodes ≠ []) (hidw : ∀ w ∈ ws, SmallId w.obj.id) (hidr : ∀ r ∈ rs, SmallId r.obj.id)
    (hv : ∀ w ∈ ws, ∀ t ∈ w.obj.tags, t.value ≠ "")
    (s : Asm) (h1 : Asm.AfterPass1 mpCfg (protocol m (fileOf ns ws rs)) s) :
    ∃ ws', List.Forall₂ (LocatedBy ns unset) ws ws' ∧
      ((∃ calls, secondPass env pos neg s (protocol m (fileOf ns ws rs)) = .ok calls ∧
          secondTrace env pos neg (pos.empty, neg.empty) s (protocol m (fileOf ns ws rs)) = (calls, none)) ∨
       ∃ ws1 w ws2 rs1 r rs2 calls, secondPass env pos neg s (protocol m (fileOf ns ws rs)) = .error geosError ∧
          secondTrace env pos neg (pos.empty, neg.empty) s (protocol m (fileOf ns ws rs)) = (calls, some geosError) ∧
          ws' = ws1 ++ w :: ws2 ∧
          (rs1 ++ r :: rs2).Perm (rs.filter fun r => decide (IsMultipolygon r) && decide (CompletedBy ws1 w r)) ∧
          buildWhole env r (wayMembers ws' r) = .error geosError ∧
          (∀ x ∈ (rs.filter fun r => decide (IsMultipolygon r) && decide (HasItsWays ws1 r)) ++ rs1,
            ∃ as, buildWhole env x (wayMembers ws' x) = .ok as) ∧
          otherCalls calls = Cb.init m :: runCalls (ns.map OsmObj.node) ++
            Cb.before .way :: ws1.map (fun v => Cb.obj (.way v)) ∧
          (areasIn calls).Perm
            ((ws1.filter fun w => decide (¬ InMultipolygon rs w) && decide (IsClosedArea w)).map areaOfWay ++
             ((rs.filter fun r => decide (IsMultipolygon r) && decide (HasItsWays ws1 r)) ++ rs1).flatMap
              (areasOfRelation env ws'))) := by
  obtain ⟨ws', s', ev, hl, -, -, h⟩ :=
    interrupted_events fp fn env hsort m ns ws rs hd hn hw hokp hokn hu hnodes hidw hidr hv s h1
  refine ⟨ws', hl, ?_⟩
  rcases h with h | ⟨ws1, w, ws2, rs1, r, rs2, calls, a1, a2, a3, a4, a5, a6, a7, a8, -⟩
  · exact .inl h
  · exact .inr ⟨ws1, w, ws2, rs1, r, rs2, calls, a1, a2, a3, a4, a5, a6, a7, a8⟩

end Osmium
