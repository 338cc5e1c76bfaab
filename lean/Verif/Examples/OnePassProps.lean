import Verif.Examples.OnePass
import Verif.Examples.TwoPassProps
import Verif.Examples.SmallProps
import Verif.Examples.VersionsProps

/-
Property C131: the programs that read each of their files once report what is in the data their arguments stand for, or fail.
-/
namespace Osmium
open Spec

namespace Spec

/-- The data a name stands for: a file, an address or standard input. -/
def dataOf (w : Sources) (name : List Char) : Option FileData :=
  if IsStd name then w.stdin else contentsOf w name

/-- The data is in the format. -/
def FitsFormat (format : FileType × FileEncoding) : FileData → Prop
  | .pbf _ => format.2 = .pbf
  | .xml _ => format.2 ≠ .pbf

/-- The calls of a reader when the handler never stops it, and how it ends, however the system hands out the data. -/
def DataGives (c : PbfCodec) (format : FileType × FileEncoding) (x : FileData) (r : List Cb × ParseEnd) : Prop :=
  FitsFormat format x ∧ ∀ chunks, x.read c format.1 chunks = r

end Spec

/-! ### Opening -/

theorem input_any (w : Sources) (name : List Char) (hp : IsStd name ∨ PlainName name) :
    (FileInfo.ofName name).type = (settingsOf name).1 ∧ (FileInfo.ofName name).encoding = (settingsOf name).2 ∧
    ((FileInfo.ofName name).fromStd = true ↔ IsStd name) ∧
    w.input (FileInfo.ofName name) =
      (dataOf w name).elim (.error (.exn (if IsStd name then "read error" else "Open failed"))) .ok := by
  by_cases hs : IsStd name
  · have e : settingsOf name = (.osm, .pbf) := by
      unfold settingsOf
      rw [if_pos (show name = [] ∨ name = "-".toList from hs)]
    rw [ofName_std hs, e]
    refine ⟨rfl, rfl, by simp [FileInfo.fromStd, hs], ?_⟩
    unfold dataOf
    rw [if_pos hs, if_pos hs]
    unfold Sources.input
    have hpr : ¬ (fileProtocol [] = "http".toList ∨ fileProtocol [] = "https".toList) := by decide
    rw [if_neg (by decide)]
    simp only [hpr, if_false, if_true]
    cases w.stdin <;> rfl
  · have hpl : PlainName name := hp.resolve_left hs
    obtain ⟨h1, h2, h3, h4⟩ := input_plain w name hpl hs
    refine ⟨h1, h2, by simp [h3, hs], ?_⟩
    rw [h4]
    unfold dataOf
    rw [if_neg hs, if_neg hs]

/-- Reading good or bad data with a handler that has all callbacks and never stops. -/
theorem readBy_all (c : PbfCodec) (format : FileType × FileEncoding) (x : FileData) (r : List Cb × ParseEnd)
    (h : DataGives c format x r) (ch : Nat → Nat) :
    x.readBy c format.1 (decide (format.2 = .pbf)) (fun _ => false) (fun _ => false) ch = r := by
  obtain ⟨f, hr⟩ := h
  have := hr ch
  cases x with
  | xml evs =>
    simp only [FitsFormat] at f
    simp only [FileData.readBy, f, decide_false, Bool.false_eq_true, if_false]
    exact this
  | pbf data =>
    simp only [FitsFormat] at f
    simp only [FileData.readBy, f, decide_true, if_true]
    rw [pbfParseFor_none]
    exact this

/-- Every data gives something in its own format. -/
theorem gives_exists (c : PbfCodec) (format : FileType × FileEncoding) (x : FileData)
    (f : FitsFormat format x) : ∃ r, DataGives c format x r := by
  refine ⟨x.read c format.1 (fun _ => 1), f, fun ch => ?_⟩
  cases x with
  | xml evs => rfl
  | pbf data => exact (pbf_pieces (fun _ => false) c format.1 _ data ch (fun _ => 1)).1

theorem readOnce_gives (w : Sources) (c : PbfCodec) (name : List Char) (hp : IsStd name ∨ PlainName name) (x : FileData)
    (hx : dataOf w name = some x) (r : List Cb × ParseEnd) (h : DataGives c (settingsOf name) x r) (ch : Nat → Nat) :
    w.readOnce c (FileInfo.ofName name) (fun _ => false) (fun _ => false) ch =
      (r, if IsStd name then { w with stdin := none } else w) := by
  obtain ⟨t1, t2, t3, t4⟩ := input_any w name hp
  rw [hx] at t4
  unfold Sources.readOnce
  simp only [Option.elim_some] at t4
  rw [t4]
  simp only [t1, t2, readBy_all c _ x r h]
  by_cases hs : IsStd name
  · rw [if_pos (t3.2 hs), if_pos hs]
  · rw [if_neg (fun h => hs (t3.1 h)), if_neg hs]

theorem readOnce_none (w : Sources) (c : PbfCodec) (name : List Char) (hp : IsStd name ∨ PlainName name)
    (hx : dataOf w name = none) (skip : ObjType → Bool) (h : Stops) (ch : Nat → Nat) :
    ∃ e, w.readOnce c (FileInfo.ofName name) skip h ch = (([], .threw e), w) := by
  obtain ⟨t1, t2, t3, t4⟩ := input_any w name hp
  rw [hx] at t4
  unfold Sources.readOnce
  simp only [Option.elim_none] at t4
  rw [t4]
  exact ⟨_, rfl⟩

/-! ### Programs with one argument -/

/-- **C131**: with another number of arguments the programs only say how they are used. -/
theorem onepass_usage {β : Type} (skip : ObjType → Bool) (h : Stops) (work : List Cb → β) (c : PbfCodec) (ch : Nat → Nat)
    (w : Sources) (args : List (List Char)) (ha : args.length ≠ 1) : onePass skip h work c ch w args = .usage := by
  match args, ha with
  | [], _ => rfl
  | _ :: _ :: _, _ => rfl

/-- **C131**: when there is no data for the name, the programs fail before they print anything. -/
theorem onepass_missing {β : Type} (skip : ObjType → Bool) (h : Stops) (work : List Cb → β) (c : PbfCodec) (ch : Nat → Nat)
    (w : Sources) (name : List Char) (hp : IsStd name ∨ PlainName name) (hx : dataOf w name = none) :
    onePass skip h work c ch w [name] = .failed [] [] := by
  obtain ⟨e, he⟩ := readOnce_none w c name hp hx skip h ch
  simp only [onePass, he]

/-- Programs whose handler has all callbacks and never stops: they work with all of the data, or fail after the calls that
could be made. -/
theorem onepass_gives {β : Type} (work : List Cb → β) (c : PbfCodec) (ch : Nat → Nat) (w : Sources) (name : List Char)
    (hp : IsStd name ∨ PlainName name) (x : FileData) (hx : dataOf w name = some x) (calls : List Cb) (e : ParseEnd)
    (h : DataGives c (settingsOf name) x (calls, e)) :
    onePass (fun _ => false) (fun _ => false) work c ch w [name] =
      match e with
      | .returned => .done (work calls)
      | .threw _ => .failed calls [] := by
  simp only [onePass, readOnce_gives w c name hp x hx (calls, e) h ch]
  cases e <;> rfl

/-- **C131**, osmium_time: for every file that can be read, the program prints the numbers of nodes, ways and relations in it. -/
theorem time_program (c : PbfCodec) (ch : Nat → Nat) (w : Sources) (name : List Char) (hp : IsStd name ∨ PlainName name)
    (x : FileData) (hx : dataOf w name = some x) (m : Meta) (os : List OsmObj)
    (h : DataGives c (settingsOf name) x (protocol m os, .returned)) (hl : os.length < 2 ^ 64) :
    timeProgram c ch w [name] = .done [txt "nodes: " ++ Text.natDec (countNodes os) ++ txt "  ways: " ++
      Text.natDec (countWays os) ++ txt "  relations: " ++ Text.natDec (countRelations os)] := by
  unfold timeProgram
  rw [onepass_gives timeMain c ch w name hp x hx _ _ h]
  simp only [time_counts m os hl]

/-- **C131**, osmium_time and osmium_debug: they end well only if all of the data has been read without an error. -/
theorem onepass_done {β : Type} (work : List Cb → β) (c : PbfCodec) (ch : Nat → Nat) (w : Sources) (args : List (List Char))
    (hp : ∀ name ∈ args, IsStd name ∨ PlainName name) (out : β)
    (h : onePass (fun _ => false) (fun _ => false) work c ch w args = .done out) :
    ∃ name x calls, args = [name] ∧ dataOf w name = some x ∧ DataGives c (settingsOf name) x (calls, .returned) ∧
      out = work calls := by
  match args, hp, h with
  | [], _, h => cases h
  | _ :: _ :: _, _, h => cases h
  | [name], hp, h =>
    have hpl := hp name (by simp)
    cases hx : dataOf w name with
    | none => rw [onepass_missing _ _ work c ch w name hpl hx] at h; cases h
    | some x =>
      by_cases f : FitsFormat (settingsOf name) x
      · obtain ⟨⟨calls, e⟩, hr⟩ := gives_exists c (settingsOf name) x f
        rw [onepass_gives work c ch w name hpl x hx calls e hr] at h
        cases e with
        | threw e => cases h
        | returned =>
          cases h
          exact ⟨name, x, calls, rfl, hx, hr, rfl⟩
      · exfalso
        obtain ⟨t1, t2, t3, t4⟩ := input_any w name hpl
        rw [hx] at t4
        simp only [Option.elim_some] at t4
        simp only [onePass, Sources.readOnce, t4, t1, t2] at h
        cases x with
        | xml evs =>
          simp only [FitsFormat, ne_eq, not_not] at f
          simp [FileData.readBy, f] at h
        | pbf data =>
          simp only [FitsFormat] at f
          simp [FileData.readBy, f] at h

/-- **C131**, osmium_debug: the dump is that of all calls for the data (see C70 and C99 for what can be seen in it); if the
data cannot be read to its end the program fails. -/
theorem debug_whole_program (bt : Bounds → Line) (endtime : Bool) (c : PbfCodec) (ch : Nat → Nat) (w : Sources)
    (name : List Char) (hp : IsStd name ∨ PlainName name) (x : FileData) (hx : dataOf w name = some x) (calls : List Cb)
    (e : ParseEnd) (h : DataGives c (settingsOf name) x (calls, e)) :
    debugProgram bt endtime c ch w [name] =
      match e with
      | .returned => .done (osmiumDebug bt endtime (calls, .returned))
      | .threw _ => .failed calls [] :=
  onepass_gives _ c ch w name hp x hx calls e h

/-! ### osmium_find_bbox -/

/-- (helper, no counterpart in /repo) The calls up to the first `after_nodes`. -/
def throughNodes : List Cb → List Cb
  | [] => []
  | c :: cs => if c = .after .node then [c] else c :: throughNodes cs

theorem deliver_bbox (cs d : List Cb) :
    deliver bboxStops d cs = (d ++ throughNodes cs, decide (Cb.after .node ∈ cs)) := by
  induction cs generalizing d with
  | nil => simp [deliver, throughNodes]
  | cons c cs ih =>
    unfold deliver
    by_cases h : c = .after .node
    · subst h
      simp [bboxStops, throughNodes]
    · have h1 : bboxStops (d ++ [c]) = false := by simp [bboxStops, h]
      rw [h1, ih]
      have h2 : Cb.after .node ≠ c := fun e => h e.symm
      simp [throughNodes, h, h2]

theorem throughNodes_none {a : List Cb} (h : Cb.after .node ∉ a) : throughNodes a = a := by
  induction a with
  | nil => rfl
  | cons c a ih =>
    simp only [List.mem_cons, not_or] at h
    have h2 : c ≠ Cb.after .node := fun e => h.1 e.symm
    simp [throughNodes, h2, ih h.2]

theorem throughNodes_app {a b : List Cb} (h : Cb.after .node ∉ a) : throughNodes (a ++ b) = a ++ throughNodes b := by
  induction a with
  | nil => rfl
  | cons c a ih =>
    simp only [List.mem_cons, not_or] at h
    have h2 : c ≠ Cb.after .node := fun e => h.1 e.symm
    simp [throughNodes, h2, ih h.2]

theorem nodesBeforeEnd_through (cs tail tail2 : List Cb) (h : Cb.after .node ∈ cs) :
    nodesBeforeEnd (throughNodes cs ++ tail) = nodesBeforeEnd (cs ++ tail2) := by
  induction cs with
  | nil => cases h
  | cons c cs ih =>
    by_cases hc : c = .after .node
    · subst hc; simp [throughNodes, nodesBeforeEnd]
    · have h2 : Cb.after .node ∈ cs := by
        rcases List.mem_cons.1 h with e | e
        · exact absurd e.symm hc
        · exact e
      have := ih h2
      simp only [throughNodes, hc, if_false, List.cons_append]
      rcases c with m | t | o | t | _
      · simpa [nodesBeforeEnd] using this
      · simpa [nodesBeforeEnd] using this
      · cases o <;> simpa [nodesBeforeEnd] using this
      · cases t <;> first | exact absurd rfl hc | simpa [nodesBeforeEnd] using this
      · simpa [nodesBeforeEnd] using this

theorem nodesBeforeEnd_seen (cs : List Cb) : nodesBeforeEnd (seen bboxSkips cs) = nodesBeforeEnd cs := by
  induction cs with
  | nil => rfl
  | cons c cs ih =>
    have hcons : seen bboxSkips (c :: cs) = seen bboxSkips [c] ++ seen bboxSkips cs := by rw [← seen_append]; rfl
    rw [hcons]
    rcases c with m | t | o | t | _
    · simpa [seen, nodesBeforeEnd] using ih
    · simpa [seen, nodesBeforeEnd] using ih
    · cases o <;> simpa [seen, bboxSkips, OsmObj.type, nodesBeforeEnd] using ih
    · cases t <;> first | rfl | simpa [seen, nodesBeforeEnd] using ih
    · simpa [seen, nodesBeforeEnd] using ih

theorem bboxEmpty : EmptyFor bboxSkips bboxStops := by
  constructor
  · intro cs o _
    simp [bboxStops]
  · intro cs c _
    simp [bboxStops]

/-- (helper) The calls that reach the handler FindBbox. -/
theorem parseFrame_bbox {ev : Events} {ends all : List Cb} {e : ParseEnd}
    (h : parseFrame (fun _ => false) ev ends = (all, e)) (hg : e = .returned ∨ Cb.after .node ∈ all) :
    ∃ cs, parseFrame bboxStops ev ends = (cs, .returned) ∧ nodesBeforeEnd cs = nodesBeforeEnd all := by
  unfold parseFrame at h ⊢
  rw [deliver_never] at h
  rw [deliver_bbox]
  cases hf : ev.fail with
  | some f =>
    rw [hf] at h
    simp only [List.nil_append, Prod.mk.injEq] at h
    obtain ⟨rfl, rfl⟩ := h
    have hm : Cb.after .node ∈ ev.calls := by
      rcases hg with h | h
      · cases h
      · exact h
    simp only [hm, decide_true]
    refine ⟨_, rfl, ?_⟩
    have := nodesBeforeEnd_through ev.calls [.final] [] hm
    simpa using this
  | none =>
    rw [hf] at h
    simp only [deliver_never, List.nil_append, Prod.mk.injEq] at h
    obtain ⟨rfl, rfl⟩ := h
    by_cases hm : Cb.after .node ∈ ev.calls
    · simp only [hm, decide_true]
      refine ⟨_, rfl, ?_⟩
      have := nodesBeforeEnd_through ev.calls [.final] (ends ++ [.final]) hm
      simpa using this
    · simp only [hm, decide_false, deliver_bbox, List.nil_append]
      refine ⟨_, rfl, ?_⟩
      by_cases hm2 : Cb.after .node ∈ ends
      · have hm3 : Cb.after .node ∈ ev.calls ++ ends := List.mem_append_right _ hm2
        rw [throughNodes_none hm, ← throughNodes_app hm]
        exact nodesBeforeEnd_through _ _ _ hm3
      · rw [throughNodes_none hm, throughNodes_none hm2]

/-- What FindBbox is given of data that is good up to the end of the nodes. -/
theorem readBy_bbox (c : PbfCodec) (format : FileType × FileEncoding) (x : FileData) (all : List Cb) (e : ParseEnd)
    (h : DataGives c format x (all, e)) (hg : e = .returned ∨ Cb.after .node ∈ all) (ch : Nat → Nat) :
    ∃ cs, x.readBy c format.1 (decide (format.2 = .pbf)) bboxSkips bboxStops ch = (cs, .returned) ∧
      nodesBeforeEnd cs = nodesBeforeEnd all := by
  obtain ⟨f, hr⟩ := h
  have h := hr ch
  cases x with
  | xml evs =>
    simp only [FitsFormat] at f
    simp only [FileData.readBy, f, decide_false, Bool.false_eq_true, if_false]
    change xmlParse _ _ _ = _ at h
    unfold xmlParse at h ⊢
    rcases hx : xmlRun (XCtl.init format.1) evs with ⟨ops, r⟩
    rw [hx] at h
    cases r <;> exact parseFrame_bbox h hg
  | pbf data =>
    simp only [FitsFormat] at f
    simp only [FileData.readBy, f, decide_true, if_true]
    change pbfParse _ _ _ _ = _ at h
    have h3 : ∃ cs, pbfParse c format.1 bboxStops ⟨data, ch⟩ = (cs, .returned) ∧
        nodesBeforeEnd cs = nodesBeforeEnd all := by
      unfold pbfParse at h ⊢
      rcases hb : readBlobs c.toBlobCodec ⟨data, ch⟩ with ⟨bs, f⟩
      rw [hb] at h
      rcases hp : parseBlobs c format.1 (Meta.new format.1.multi) .unknown bs with ⟨ev, m, last⟩
      simp only [hp] at h ⊢
      exact parseFrame_bbox h hg
    obtain ⟨cs, h3, h4⟩ := h3
    rcases pbf_skip_partial bboxSkips c format.1 bboxStops bboxEmpty ⟨data, ch⟩ with r | ⟨⟨e, r⟩, _⟩
    · rw [h3] at r
      exact ⟨_, r, by rw [nodesBeforeEnd_seen, h4]⟩
    · rw [h3] at r; cases r

/-- **C131**, osmium_find_bbox: the program prints the line for the nodes before the first end of nodes in the file.  What
comes after it need not be readable. -/
theorem find_bbox_whole (c : PbfCodec) (ch : Nat → Nat) (w : Sources) (name : List Char) (hp : IsStd name ∨ PlainName name)
    (x : FileData) (hx : dataOf w name = some x) (all : List Cb) (e : ParseEnd)
    (h : DataGives c (settingsOf name) x (all, e)) (hg : e = .returned ∨ Cb.after .node ∈ all) :
    findBboxProgram c ch w [name] = .done (bboxLine (Bounds.empty.extendAll (nodesBeforeEnd all))) := by
  obtain ⟨t1, t2, t3, t4⟩ := input_any w name hp
  rw [hx] at t4
  simp only [Option.elim_some] at t4
  obtain ⟨cs, h1, h2⟩ := readBy_bbox c (settingsOf name) x all e h hg ch
  unfold findBboxProgram
  simp only [onePass, Sources.readOnce, t4, t1, t2, h1]
  unfold findBboxMain
  rw [findBbox_read, h2]

/-- **C131**, osmium_find_bbox: for every file that can be read and begins with its nodes, the program prints the smallest box
with all nodes in it, with the accuracy of C88.  (Partial as `find_bbox_partial`.) -/
theorem find_bbox_program_partial (c : PbfCodec) (ch : Nat → Nat) (w : Sources) (name : List Char)
    (hp : IsStd name ∨ PlainName name) (x : FileData) (hx : dataOf w name = some x) (m : Meta) (ns rest : List OsmObj)
    (h : DataGives c (settingsOf name) x (protocol m (ns ++ rest), .returned)) (hn : ∀ o ∈ ns, o.type = .node)
    (hr : ∀ o ∈ rest, o.type ≠ .node) (hne : ns ≠ [])
    (hpos : ∀ p ∈ nodePositions (ns ++ rest), p.defined = true ∧ InS32 p.x ∧ InS32 p.y) :
    ∃ line minx miny maxx maxy, findBboxProgram c ch w [name] = .done line ∧
      IsMinOf Position.x (nodePositions (ns ++ rest)) minx ∧ IsMinOf Position.y (nodePositions (ns ++ rest)) miny ∧
      IsMaxOf Position.x (nodePositions (ns ++ rest)) maxx ∧ IsMaxOf Position.y (nodePositions (ns ++ rest)) maxy ∧
      BoxLine line minx miny maxx maxy (501 / 1000000) := by
  obtain ⟨a, b, d, e, h1, h2, h3, h4, h5⟩ := find_bbox_partial m ns rest hn hr hne hpos
  refine ⟨_, a, b, d, e, find_bbox_whole c ch w name hp x hx _ _ h (.inl rfl), h1, h2, h3, h4, ?_⟩
  rw [← findBbox_read]
  exact h5

/-! ### osmium_store_and_debug -/

/-- **C131**, osmium_store_and_debug: with two files that can be read, at most one of them standard input, the program works
with all data of the first as changes and all of the second as the file they are applied to. -/
theorem store_debug_whole (bt : Bounds → Line) (c : PbfCodec) (ch1 ch2 : Nat → Nat) (w : Sources) (n1 n2 : List Char)
    (hp1 : IsStd n1 ∨ PlainName n1) (hp2 : IsStd n2 ∨ PlainName n2) (hs : ¬ (IsStd n1 ∧ IsStd n2)) (x1 x2 : FileData)
    (hx1 : dataOf w n1 = some x1) (hx2 : dataOf w n2 = some x2) (cs1 cs2 : List Cb)
    (h1 : DataGives c (settingsOf n1) x1 (cs1, .returned)) (h2 : DataGives c (settingsOf n2) x2 (cs2, .returned)) :
    storeDebugProgram bt c ch1 ch2 w [n1, n2] =
      match storeDebugMain bt cs1 cs2 with
      | .ok out => .done out
      | .error _ => .failed cs1 cs2 := by
  have hx2' : dataOf (if IsStd n1 then { w with stdin := none } else w) n2 = some x2 := by
    by_cases h : IsStd n1
    · have hn : ¬ IsStd n2 := fun h' => hs ⟨h, h'⟩
      rw [if_pos h]
      unfold dataOf at hx2 ⊢
      rw [if_neg hn] at hx2 ⊢
      exact hx2
    · rw [if_neg h]; exact hx2
  simp only [storeDebugProgram, readOnce_gives w c n1 hp1 x1 hx1 _ h1 ch1,
    readOnce_gives _ c n2 hp2 x2 hx2' _ h2 ch2]
  rfl

/-- **C131, disagreement**: both files cannot be read from standard input: the program always fails. -/
theorem store_debug_stdin (bt : Bounds → Line) (c : PbfCodec) (ch1 ch2 : Nat → Nat) (w : Sources) (n1 n2 : List Char)
    (h1 : IsStd n1) (h2 : IsStd n2) : ∃ cs, storeDebugProgram bt c ch1 ch2 w [n1, n2] = .failed cs [] := by
  cases hx : dataOf w n1 with
  | none =>
    obtain ⟨e, he⟩ := readOnce_none w c n1 (.inl h1) hx (fun _ => false) (fun _ => false) ch1
    exact ⟨[], by simp only [storeDebugProgram, he]⟩
  | some x =>
    obtain ⟨t1, t2, t3, t4⟩ := input_any w n1 (.inl h1)
    rw [hx] at t4
    simp only [Option.elim_some] at t4
    have hr : ∃ r, w.readOnce c (FileInfo.ofName n1) (fun _ => false) (fun _ => false) ch1 = (r, { w with stdin := none }) := by
      unfold Sources.readOnce
      rw [t4]
      simp only [t3.2 h1, if_true]
      exact ⟨_, rfl⟩
    obtain ⟨⟨cs, e⟩, hr⟩ := hr
    simp only [storeDebugProgram, hr]
    cases e with
    | threw e => exact ⟨cs, rfl⟩
    | returned =>
      obtain ⟨e, he⟩ := readOnce_none { w with stdin := none } c n2 (.inl h2) (by unfold dataOf; rw [if_pos h2])
        (fun _ => false) (fun _ => false) ch2
      simp only [he]
      exact ⟨cs, rfl⟩

/-- **C131**, osmium_store_and_debug: what is in the dump.  (Partial as `store_and_debug_partial`.) -/
theorem store_debug_program_partial (bt : Bounds → Line) (c : PbfCodec) (ch1 ch2 : Nat → Nat) (w : Sources) (n1 n2 : List Char)
    (hp1 : IsStd n1 ∨ PlainName n1) (hp2 : IsStd n2 ∨ PlainName n2) (hs : ¬ (IsStd n1 ∧ IsStd n2)) (x1 x2 : FileData)
    (hx1 : dataOf w n1 = some x1) (hx2 : dataOf w n2 = some x2) (mc mf : Meta) (chg ns ws rs : List OsmObj)
    (h1 : DataGives c (settingsOf n1) x1 (protocol mc chg, .returned))
    (h2 : DataGives c (settingsOf n2) x2 (protocol mf (ns ++ ws ++ rs), .returned))
    (hc : Comparable (chg ++ (ns ++ ws ++ rs)))
    (hn : ∀ o ∈ ns, o.type = .node) (hw : ∀ o ∈ ws, o.type = .way) (hr : ∀ o ∈ rs, o.type = .relation)
    (tn : ns.Pairwise (fun a b => ¬ Spec.Before b a)) (tw : ws.Pairwise (fun a b => ¬ Spec.Before b a))
    (tr : rs.Pairwise (fun a b => ¬ Spec.Before b a)) :
    ∃ N W R cn cw cr, storeDebugProgram bt c ch1 ch2 w [n1, n2] =
        .done (debugText bt false (protocol (Meta.new false) (N ++ W ++ R))) ∧
      Holds .node chg cn ∧ Holds .way chg cw ∧ Holds .relation chg cr ∧
      N.Perm ((if ns = [] then [] else cn) ++ ns) ∧ W.Perm ((if ws = [] then [] else cw) ++ ws) ∧
      R.Perm ((if rs = [] then [] else cr) ++ rs) ∧
      N.Pairwise (fun a b => ¬ Spec.Before b a) ∧ W.Pairwise (fun a b => ¬ Spec.Before b a) ∧
      R.Pairwise (fun a b => ¬ Spec.Before b a) := by
  obtain ⟨N, W, R, cn, cw, cr, e, rest⟩ := store_and_debug_partial bt mc mf chg ns ws rs hc hn hw hr tn tw tr
  refine ⟨N, W, R, cn, cw, cr, ?_, rest⟩
  rw [store_debug_whole bt c ch1 ch2 w n1 n2 hp1 hp2 hs x1 x2 hx1 hx2 _ _ h1 h2, e]

/-- **C131**, osmium_store_and_debug: with another number of arguments the program only says how it is used. -/
theorem store_debug_usage (bt : Bounds → Line) (c : PbfCodec) (ch1 ch2 : Nat → Nat) (w : Sources) (args : List (List Char))
    (ha : args.length ≠ 2) : storeDebugProgram bt c ch1 ch2 w args = .usage := by
  match args, ha with
  | [], _ => rfl
  | [_], _ => rfl
  | _ :: _ :: _ :: _, _ => rfl

/-! ### Examples -/

/-- What is read from the file of the example in TwoPassProps.lean. -/
theorem two_gives : DataGives demoPbfCodec (settingsOf "f.osm".toList) (.xml twoXml)
    (protocol (Meta.new false) (twoObjs.1 ++ (twoObjs.2.1 ++ twoObjs.2.2.map .relation)), .returned) := by
  refine ⟨by unfold FitsFormat; decide, fun _ => ?_⟩
  show xmlParse .osm (fun _ => false) ⟨twoXml, none⟩ = _
  decide +kernel

/-- `osmium_time f.osm` prints the numbers. -/
example : timeProgram demoPbfCodec (fun _ => 7) twoSources ["f.osm".toList] =
    .done [txt "nodes: 1  ways: 1  relations: 1"] := by
  rw [time_program demoPbfCodec (fun _ => 7) twoSources "f.osm".toList (.inr (by decide)) (.xml twoXml) rfl _ _ two_gives
    (by decide)]
  exact congrArg Ran.done (by decide +kernel)

/-- `osmium_find_bbox f.osm` prints a box around the node. -/
example : ∃ line minx miny maxx maxy, findBboxProgram demoPbfCodec (fun _ => 7) twoSources ["f.osm".toList] = .done line ∧
    IsMinOf Position.x [⟨20000000, 10000000⟩] minx ∧ IsMinOf Position.y [⟨20000000, 10000000⟩] miny ∧
    IsMaxOf Position.x [⟨20000000, 10000000⟩] maxx ∧ IsMaxOf Position.y [⟨20000000, 10000000⟩] maxy ∧
    BoxLine line minx miny maxx maxy (501 / 1000000) :=
  find_bbox_program_partial demoPbfCodec (fun _ => 7) twoSources "f.osm".toList (.inr (by decide)) (.xml twoXml) rfl _ _ _
    two_gives (by decide) (by decide) (by decide) (by unfold InS32; decide)

/-- `osmium_time nosuch.osm` and `osmium_time a b`. -/
example : timeProgram demoPbfCodec (fun _ => 7) twoSources ["nosuch.osm".toList] = .failed [] [] ∧
    timeProgram demoPbfCodec (fun _ => 7) twoSources ["a".toList, "b".toList] = .usage :=
  ⟨onepass_missing _ _ _ _ _ _ _ (.inr (by decide)) (by decide +kernel), onepass_usage _ _ _ _ _ _ _ (by decide)⟩

/-- `osmium_store_and_debug f.osm f.osm` ends well, `osmium_store_and_debug - -` fails. -/
example (bt : Bounds → Line) :
    (∃ out, storeDebugProgram bt demoPbfCodec (fun _ => 7) (fun _ => 9) twoSources ["f.osm".toList, "f.osm".toList] = .done out) ∧
    (∃ cs, storeDebugProgram bt demoPbfCodec (fun _ => 7) (fun _ => 9) twoSources ["-".toList, "-".toList] = .failed cs []) := by
  refine ⟨?_, store_debug_stdin _ _ _ _ _ _ _ (.inr rfl) (.inr rfl)⟩
  obtain ⟨N, W, R, _, _, _, h, _⟩ := store_debug_program_partial bt demoPbfCodec (fun _ => 7) (fun _ => 9) twoSources
    "f.osm".toList "f.osm".toList (.inr (by decide)) (.inr (by decide)) (by decide) (.xml twoXml) (.xml twoXml) rfl rfl
    (Meta.new false) (Meta.new false) _ twoObjs.1 twoObjs.2.1 (twoObjs.2.2.map .relation) two_gives
    (by rw [List.append_assoc]; exact two_gives) ⟨by unfold Obj.absOk; decide +kernel, by decide +kernel⟩
    (by decide) (by decide) (by decide) (by decide) (by decide) (by decide)
  exact ⟨_, h⟩

end Osmium
