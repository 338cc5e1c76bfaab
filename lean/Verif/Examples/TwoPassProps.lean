import Verif.Examples.TwoPass

/-
Property C129: the programs that read their file twice see the same data twice, or fail.
-/
namespace Osmium
open Spec

namespace Spec

/-- The data a name stands for, if it is a file or an address.  (`unpacked` is what comes out of `zcat` or `bzcat`.) -/
def contentsOf (w : Sources) (name : List Char) : Option FileData :=
  if Compressed (settingsOf name).2 then some (w.unpacked (settingsOf name).2 name)
  else if IsUrl name then some (w.web name)
  else w.files name

/-- Reading the data in a format gives these calls, however the system hands it out. -/
def DataReadsAs (c : PbfCodec) (format : FileType × FileEncoding) (x : FileData) (calls : List Cb) : Prop :=
  (match x with | .pbf _ => format.2 = .pbf | .xml _ => format.2 ≠ .pbf) ∧
  ∀ chunks, x.read c format.1 chunks = (calls, .returned)

end Spec

/-! ### The calls of the first pass -/

/-- (helper, no counterpart in /repo) The calls up to the first `after_relations`. -/
def through : List Cb → List Cb
  | [] => []
  | c :: cs => if c = .after .relation then [c] else c :: through cs

theorem deliver_pass1 (cs d : List Cb) :
    deliver pass1Stops d cs = (d ++ through cs, decide (Cb.after .relation ∈ cs)) := by
  induction cs generalizing d with
  | nil => simp [deliver, through]
  | cons c cs ih =>
    unfold deliver
    by_cases h : c = .after .relation
    · subst h
      simp [pass1Stops, through]
    · have h1 : pass1Stops (d ++ [c]) = false := by simp [pass1Stops, h]
      rw [h1, ih]
      have h2 : Cb.after .relation ≠ c := fun e => h e.symm
      simp [through, h, h2]

theorem deliver_never (cs d : List Cb) : deliver (fun _ => false) d cs = (d ++ cs, false) := by
  induction cs generalizing d with
  | nil => simp [deliver]
  | cons c cs ih => unfold deliver; simp [ih]

theorem through_app (a b : List Cb) :
    through (a ++ b) = if Cb.after .relation ∈ a then through a else a ++ through b := by
  induction a with
  | nil => simp [through]
  | cons c a ih =>
    by_cases h : c = .after .relation
    · subst h; simp [through]
    · have h2 : Cb.after .relation ≠ c := fun e => h e.symm
      simp only [List.cons_append, through, h, if_false, ih, List.mem_cons, h2, false_or]
      split <;> rfl

theorem through_none {a : List Cb} (h : Cb.after .relation ∉ a) : through a = a := by
  have := through_app a []
  rw [if_neg h] at this
  simpa [through] using this

theorem parseFrame_pass1 {ev : Events} {ends all : List Cb} (h : parseFrame (fun _ => false) ev ends = (all, .returned)) :
    parseFrame pass1Stops ev ends = (through (ev.calls ++ ends) ++ [.final], .returned) ∧
    all = ev.calls ++ ends ++ [.final] := by
  unfold parseFrame at h ⊢
  rw [deliver_never] at h
  rw [deliver_pass1]
  cases hf : ev.fail with
  | some e => rw [hf] at h; simp at h
  | none =>
    rw [hf] at h
    simp only [deliver_never, List.nil_append, Prod.mk.injEq, and_true] at h
    refine ⟨?_, h.symm⟩
    by_cases hc : Cb.after .relation ∈ ev.calls
    · simp [hc, through_app]
    · simp [hc, through_app, deliver_pass1, through_none hc]

theorem pass1Empty : EmptyFor pass1Skips pass1Stops := by
  constructor
  · intro cs o _
    simp [pass1Stops]
  · intro cs c _
    simp [pass1Stops]

theorem pass1_through (cfg : AsmCfg) (cs : List Cb) (s : Asm) (tail : List Cb)
    (ht : ∀ c ∈ tail, c = .final) : Asm.pass1 cfg s (through cs ++ tail) = Asm.pass1 cfg s cs := by
  have htail : ∀ (t : List Cb) (s : Asm), (∀ c ∈ t, c = Cb.final) → Asm.pass1 cfg s t = (s, false) := by
    intro t
    induction t with
    | nil => intro s _; rfl
    | cons c t ih =>
      intro s hc
      have h1 := hc c (by simp)
      subst h1
      exact ih s fun c hc' => hc c (by simp [hc'])
  induction cs generalizing s with
  | nil => simp [through, htail tail s ht, Asm.pass1]
  | cons c cs ih =>
    by_cases h : c = .after .relation
    · subst h; simp [through, Asm.pass1]
    · simp only [through, h, if_false, List.cons_append]
      cases c with
      | obj o => cases o <;> simp [Asm.pass1, ih]
      | after t => cases t <;> first | exact absurd rfl h | simp [Asm.pass1, ih]
      | _ => simp [Asm.pass1, ih]

theorem pass1_seen (cfg : AsmCfg) (cs : List Cb) (s : Asm) :
    Asm.pass1 cfg s (seen pass1Skips cs) = Asm.pass1 cfg s cs := by
  induction cs generalizing s with
  | nil => rfl
  | cons c cs ih =>
    have hcons : seen pass1Skips (c :: cs) = seen pass1Skips [c] ++ seen pass1Skips cs := by rw [← seen_append]; rfl
    rw [hcons]
    cases c with
    | obj o =>
      cases o with
      | node n => simpa [seen, pass1Skips, OsmObj.type, Asm.pass1] using ih s
      | way n => simpa [seen, pass1Skips, OsmObj.type, Asm.pass1] using ih s
      | relation n => simpa [seen, pass1Skips, OsmObj.type, Asm.pass1] using ih _
    | after t => cases t <;> first | rfl | simpa [seen, Asm.pass1] using ih s
    | _ => simpa [seen, Asm.pass1] using ih s

theorem lines_through (level : Nat) (cs : List Cb) (tail : List Cb) (ht : ∀ c ∈ tail, c = .final) :
    pass1Lines level (through cs ++ tail) = pass1Lines level cs := by
  have htail : ∀ t : List Cb, (∀ c ∈ t, c = Cb.final) → pass1Lines level t = [] := by
    intro t
    induction t with
    | nil => intro _; rfl
    | cons c t ih =>
      intro hc
      have h1 := hc c (by simp)
      subst h1
      exact ih fun c hc' => hc c (by simp [hc'])
  induction cs with
  | nil => simp [through, htail tail ht, pass1Lines]
  | cons c cs ih =>
    by_cases h : c = .after .relation
    · subst h; simp [through, pass1Lines]
    · simp only [through, h, if_false, List.cons_append]
      cases c with
      | obj o => cases o <;> simp [pass1Lines, ih]
      | after t => cases t <;> first | exact absurd rfl h | simp [pass1Lines, ih]
      | _ => simp [pass1Lines, ih]

theorem lines_seen (level : Nat) (cs : List Cb) : pass1Lines level (seen pass1Skips cs) = pass1Lines level cs := by
  induction cs with
  | nil => rfl
  | cons c cs ih =>
    have hcons : seen pass1Skips (c :: cs) = seen pass1Skips [c] ++ seen pass1Skips cs := by rw [← seen_append]; rfl
    rw [hcons]
    cases c with
    | obj o =>
      cases o with
      | node n => simpa [seen, pass1Skips, OsmObj.type, pass1Lines] using ih
      | way n => simpa [seen, pass1Skips, OsmObj.type, pass1Lines] using ih
      | relation n => simpa [seen, pass1Skips, OsmObj.type, pass1Lines] using ih
    | after t => cases t <;> first | rfl | simpa [seen, pass1Lines] using ih
    | _ => simpa [seen, pass1Lines] using ih

theorem pbfParseFor_none (c : PbfCodec) (ft : FileType) (h : Stops) (i : Input) :
    pbfParseFor (fun _ => false) c ft h i = pbfParse c ft h i := by
  have h1 : ∀ m last b g, readGroupFor (fun _ => false) m last b g = readGroup m last b g := by
    intro m last b g
    unfold readGroupFor readGroup
    cases g.dense <;> simp only [unlessSkipped, Bool.false_eq_true, if_false]
  have h2 : ∀ m b gs last, readGroupsFor (fun _ => false) m b last gs = readGroups m b last gs := by
    intro m b gs
    induction gs with
    | nil => intro last; rfl
    | cons g gs ih => intro last; simp only [readGroupsFor, readGroups, h1, ih]
  have h3 : ∀ bs m last, parseBlobsFor (fun _ => false) c ft m last bs = parseBlobs c ft m last bs := by
    intro bs
    induction bs with
    | nil => intro m last; rfl
    | cons p bs ih =>
      intro m last
      obtain ⟨t, d⟩ := p
      simp only [parseBlobsFor, parseBlobs, h2, ih]
      split
      · cases c.decBlock d <;> rfl
      · split
        · cases c.decHeader d with
          | none => rfl
          | some x => simp only; cases readHeader ft m x <;> rfl
        · rfl
  unfold pbfParseFor pbfParse
  simp only [h3]

/-- What is read of good data in the first pass is as good as everything. -/
theorem readBy_pass1 (c : PbfCodec) (ft : FileType) (pbf : Bool) (ch1 ch2 : Nat → Nat) (x : FileData) (all : List Cb)
    (h : x.readBy c ft pbf (fun _ => false) (fun _ => false) ch2 = (all, .returned)) :
    ∃ cs1, x.readBy c ft pbf pass1Skips pass1Stops ch1 = (cs1, .returned) ∧
      (∀ cfg s, Asm.AfterPass1 cfg cs1 s ↔ Asm.AfterPass1 cfg all s) ∧ (∀ level, pass1Lines level cs1 = pass1Lines level all) := by
  have conv : ∀ body cs1 : List Cb, cs1 = through body ++ [.final] ∨ cs1 = seen pass1Skips (through body ++ [.final]) →
      (∀ cfg s, Asm.AfterPass1 cfg cs1 s ↔ Asm.AfterPass1 cfg (body ++ [.final]) s) ∧
      (∀ level, pass1Lines level cs1 = pass1Lines level (body ++ [.final])) := by
    intro body cs1 hcs
    have e1 : ∀ cfg s, Asm.pass1 cfg s cs1 = Asm.pass1 cfg s (body ++ [.final]) := by
      intro cfg s
      have key : Asm.pass1 cfg s (through body ++ [.final]) = Asm.pass1 cfg s (body ++ [.final]) := by
        by_cases hm : Cb.after .relation ∈ body
        · have h1 := pass1_through cfg (body ++ [.final]) s [.final] (by simp)
          rw [through_app, if_pos hm] at h1
          exact h1
        · rw [through_none hm]
      rcases hcs with rfl | rfl
      · exact key
      · rw [pass1_seen, key]
    have e2 : ∀ level, pass1Lines level cs1 = pass1Lines level (body ++ [.final]) := by
      intro level
      have key : pass1Lines level (through body ++ [.final]) = pass1Lines level (body ++ [.final]) := by
        by_cases hm : Cb.after .relation ∈ body
        · have h1 := lines_through level (body ++ [.final]) [.final] (by simp)
          rw [through_app, if_pos hm] at h1
          exact h1
        · rw [through_none hm]
      rcases hcs with rfl | rfl
      · exact key
      · rw [lines_seen, key]
    refine ⟨fun cfg s => ?_, e2⟩
    unfold Asm.AfterPass1
    rw [e1]
  cases x with
  | xml evs =>
    unfold FileData.readBy at h ⊢
    cases pbf with
    | true => simp at h
    | false =>
      simp only [Bool.false_eq_true, if_false] at h ⊢
      unfold xmlParse at h ⊢
      rcases hx : xmlRun (XCtl.init ft) evs with ⟨ops, r⟩
      rw [hx] at h
      cases r with
      | error e =>
        simp only at h
        obtain ⟨h1, h2⟩ := parseFrame_pass1 h
        simp only
        exact ⟨_, h1, by rw [h2]; exact conv _ _ (.inl rfl)⟩
      | ok s =>
        simp only at h
        obtain ⟨h1, h2⟩ := parseFrame_pass1 h
        simp only
        exact ⟨_, h1, by rw [h2]; exact conv _ _ (.inl rfl)⟩
  | pbf data =>
    unfold FileData.readBy at h ⊢
    cases pbf with
    | false => simp at h
    | true =>
      simp only [if_true] at h ⊢
      rw [(pbf_pieces _ c ft _ data ch2 ch1).2] at h
      rw [pbfParseFor_none] at h
      have h0 := h
      unfold pbfParse at h
      rcases hb : readBlobs c.toBlobCodec ⟨data, ch1⟩ with ⟨bs, f⟩
      rw [hb] at h
      rcases hp : parseBlobs c ft (Meta.new ft.multi) .unknown bs with ⟨ev, m, last⟩
      simp only [hp] at h
      obtain ⟨h1, h2⟩ := parseFrame_pass1 h
      have h3 : pbfParse c ft pass1Stops ⟨data, ch1⟩ =
          (through ((ev.seq ⟨[], f⟩).calls ++ afterAndBefore m last .unknown) ++ [.final], .returned) := by
        unfold pbfParse
        simp only [hb, hp, h1]
      rcases pbf_skip_partial pass1Skips c ft pass1Stops pass1Empty ⟨data, ch1⟩ with r | ⟨⟨e, r⟩, _⟩
      · rw [h3] at r
        exact ⟨_, r, by rw [h2]; exact conv _ _ (.inr rfl)⟩
      · rw [h3] at r; cases r

/-! ### Both passes -/

/-- (helper) A file or an address as the programs see it. -/
theorem input_plain (w : Sources) (name : List Char) (hp : PlainName name) (hs : ¬ IsStd name) :
    (FileInfo.ofName name).type = (settingsOf name).1 ∧ (FileInfo.ofName name).encoding = (settingsOf name).2 ∧
    (FileInfo.ofName name).fromStd = false ∧
    w.input (FileInfo.ofName name) = (contentsOf w name).elim (.error (.exn "Open failed")) .ok := by
  have e := file_for [] name (by simp) hp
  simp only [List.getLast?_nil, Option.getD_none, if_true, hs, if_false] at e
  have e' : FileInfo.ofName name = ⟨(settingsOf name).1, (settingsOf name).2, name⟩ := e
  have hne : name ≠ [] := fun h => hs (.inl h)
  rw [e']
  refine ⟨rfl, rfl, by simp [FileInfo.fromStd, hne], ?_⟩
  have hurl : fileProtocol name = "http".toList ∨ fileProtocol name = "https".toList ↔ IsUrl name := by
    rw [fileProtocol_eq _ _ (by decide +kernel), fileProtocol_eq _ _ (by decide +kernel)]
    unfold IsUrl
    simp only [hp.1, hp.2.1, or_false]
    exact Iff.rfl
  unfold Sources.input contentsOf
  simp only [hurl, hne, if_false]
  by_cases hc : Compressed (settingsOf name).2
  · rw [if_pos hc, if_pos (show (settingsOf name).2 = .xmlgz ∨ (settingsOf name).2 = .xmlbz2 from hc)]
    rfl
  · rw [if_neg hc, if_neg (show ¬ ((settingsOf name).2 = .xmlgz ∨ (settingsOf name).2 = .xmlbz2) from hc)]
    by_cases hu : IsUrl name
    · rw [if_pos hu, if_pos hu]; rfl
    · rw [if_neg hu, if_neg hu]
      cases w.files name <;> rfl

theorem ofName_std {name : List Char} (h : IsStd name) : FileInfo.ofName name = ⟨.osm, .pbf, []⟩ := by
  unfold FileInfo.ofName
  rw [if_pos (show name = [] ∨ name = "-".toList from h)]

/-- **C129, disagreement**: with standard input a program with two passes always fails: descriptor 0 is closed after the
first pass, and nothing is read in the second one. -/
theorem twopass_stdin {β : Type} (cfg : AsmCfg) (work : List Cb → Asm → List Cb → Res β) (c : PbfCodec) (ch1 ch2 : Nat → Nat)
    (w : Sources) (name : List Char) (hs : IsStd name) (r : Ran β) (h : TwoPass cfg work c ch1 ch2 w [name] r) :
    ∃ cs1, r = .failed cs1 [] := by
  simp only [TwoPass, ofName_std hs] at h
  have h2 : ∀ skip hh ch, ({ w with stdin := none } : Sources).readOnce c ⟨.osm, .pbf, []⟩ skip hh ch =
      (([], .threw (.exn "read error")), { w with stdin := none }) := by
    intro skip hh ch
    unfold Sources.readOnce Sources.input
    have hp : ¬ (fileProtocol [] = "http".toList ∨ fileProtocol [] = "https".toList) := by decide
    rw [if_neg (by decide)]
    simp only [hp, if_false, if_true]
  have h1 : ∀ skip hh ch, (w.readOnce c ⟨.osm, .pbf, []⟩ skip hh ch).1.2 = .returned →
      (w.readOnce c ⟨.osm, .pbf, []⟩ skip hh ch).2 = { w with stdin := none } := by
    intro skip hh ch
    unfold Sources.readOnce
    cases w.input ⟨.osm, .pbf, []⟩ with
    | error e => intro h; cases h
    | ok x => intro _; rfl
  have h1' := h1 pass1Skips pass1Stops ch1
  rcases hr : w.readOnce c ⟨.osm, .pbf, []⟩ pass1Skips pass1Stops ch1 with ⟨⟨cs1, e⟩, w1⟩
  rw [hr] at h h1'
  cases e with
  | threw e => exact ⟨cs1, h⟩
  | returned =>
    have hw := h1' rfl
    simp only at hw
    subst hw
    simp only [h2] at h
    obtain ⟨s, -, k, hk⟩ := h
    exact ⟨cs1, by simpa using hk⟩

/-- **C129**: with good data both passes see it all: the first pass takes from the file what it would take from all calls,
the second pass gets all calls. -/
theorem twopass_file {β : Type} (cfg : AsmCfg) (work : List Cb → Asm → List Cb → Res β) (c : PbfCodec) (ch1 ch2 : Nat → Nat)
    (w : Sources) (name : List Char) (hp : PlainName name) (hs : ¬ IsStd name) (x : FileData) (calls : List Cb)
    (hx : contentsOf w name = some x) (hr : DataReadsAs c (settingsOf name) x calls) (r : Ran β)
    (h : TwoPass cfg work c ch1 ch2 w [name] r) :
    ∃ cs1 s, Asm.AfterPass1 cfg calls s ∧ (∀ level, pass1Lines level cs1 = pass1Lines level calls) ∧
      ((∃ out, work cs1 s calls = .ok out ∧ r = .done out) ∨
       ((∃ e, work cs1 s calls = .error e) ∧ ∃ k, r = .failed cs1 (calls.take k))) := by
  obtain ⟨t1, t2, t3, t4⟩ := input_plain w name hp hs
  rw [hx] at t4
  simp only [Option.elim_some] at t4
  have hall : ∀ ch, x.readBy c (settingsOf name).1 (decide ((settingsOf name).2 = .pbf)) (fun _ => false) (fun _ => false) ch =
      (calls, .returned) := by
    intro ch
    obtain ⟨f, hr⟩ := hr
    have := hr ch
    cases x with
    | xml evs =>
      simp only at f
      simp only [FileData.readBy, f, decide_false, Bool.false_eq_true, if_false]
      exact this
    | pbf data =>
      simp only at f
      simp only [FileData.readBy, f, decide_true, if_true]
      rw [pbfParseFor_none]
      exact this
  obtain ⟨cs1, p1, p2, p3⟩ := readBy_pass1 c (settingsOf name).1 (decide ((settingsOf name).2 = .pbf)) ch1 ch2 x calls (hall ch2)
  have o1 : w.readOnce c (FileInfo.ofName name) pass1Skips pass1Stops ch1 = ((cs1, .returned), w) := by
    unfold Sources.readOnce
    rw [t4]
    simp only [t1, t2, t3, p1, Bool.false_eq_true, if_false]
  have o2 : w.readOnce c (FileInfo.ofName name) (fun _ => false) (fun _ => false) ch2 = ((calls, .returned), w) := by
    unfold Sources.readOnce
    rw [t4]
    simp only [t1, t2, t3, hall, Bool.false_eq_true, if_false]
  unfold TwoPass at h
  simp only [o1, o2] at h
  obtain ⟨s, h1, h2⟩ := h
  refine ⟨cs1, s, (p2 cfg s).1 h1, p3, ?_⟩
  cases hwk : work cs1 s calls with
  | ok out => rw [hwk] at h2; exact .inl ⟨out, rfl, h2⟩
  | error e => rw [hwk] at h2; exact .inr ⟨⟨e, rfl⟩, h2⟩

/-- **C129**: a program with two passes that does not fail was given one name, of a file or an address, and has used all of
its data in both passes: all of it could be read without an error. -/
theorem twopass_done {β : Type} (cfg : AsmCfg) (work : List Cb → Asm → List Cb → Res β) (c : PbfCodec) (ch1 ch2 : Nat → Nat)
    (w : Sources) (args : List (List Char)) (hp : ∀ name ∈ args, PlainName name) (out : β)
    (h : TwoPass cfg work c ch1 ch2 w args (.done out)) :
    ∃ name x calls cs1 s, args = [name] ∧ ¬ IsStd name ∧ contentsOf w name = some x ∧
      DataReadsAs c (settingsOf name) x calls ∧ Asm.AfterPass1 cfg calls s ∧
      (∀ level, pass1Lines level cs1 = pass1Lines level calls) ∧ work cs1 s calls = .ok out := by
  match args, hp, h with
  | [], _, h => cases h
  | _ :: _ :: _, _, h => cases h
  | [name], hp, h =>
    have hs : ¬ IsStd name := by
      intro hs
      obtain ⟨cs1, e⟩ := twopass_stdin cfg work c ch1 ch2 w name hs _ h
      cases e
    have hpl := hp name (by simp)
    obtain ⟨t1, t2, t3, t4⟩ := input_plain w name hpl hs
    unfold TwoPass at h
    cases hx : contentsOf w name with
    | none =>
      rw [hx] at t4
      simp only [Option.elim_none] at t4
      simp only [Sources.readOnce, t4] at h
      cases h
    | some x =>
      rw [hx] at t4
      simp only [Option.elim_some] at t4
      simp only [Sources.readOnce, t4, t1, t2, t3, Bool.false_eq_true, if_false] at h
      rcases h1 : x.readBy c (settingsOf name).1 (decide ((settingsOf name).2 = .pbf)) pass1Skips pass1Stops ch1 with ⟨cs1, e1⟩
      rw [h1] at h
      cases e1 with
      | threw e => cases h
      | returned =>
        simp only [t4] at h
        obtain ⟨s, k1, k2⟩ := h
        rcases h2 : x.readBy c (settingsOf name).1 (decide ((settingsOf name).2 = .pbf)) (fun _ => false) (fun _ => false) ch2
          with ⟨cs2, e2⟩
        rw [h2] at k2
        cases e2 with
        | threw e => simp at k2
        | returned =>
          simp only at k2
          obtain ⟨cs1', p1, p2, p3⟩ := readBy_pass1 c _ _ ch1 ch2 x cs2 h2
          rw [h1] at p1
          cases p1
          refine ⟨name, x, cs2, cs1, s, rfl, hs, hx, ?_, (p2 cfg s).1 k1, p3, ?_⟩
          · constructor
            · cases x with
              | xml evs =>
                simp only
                intro hf
                simp [FileData.readBy, hf] at h2
              | pbf data =>
                simp only
                by_contra hf
                simp [FileData.readBy, hf] at h2
            · intro ch
              cases x with
              | xml evs =>
                simp only [FileData.readBy] at h2
                split at h2
                · simp at h2
                · exact h2
              | pbf data =>
                simp only [FileData.readBy] at h2
                split at h2
                · rw [pbfParseFor_none, (pbf_pieces (fun _ => false) c _ _ data ch2 ch).1] at h2
                  exact h2
                · simp at h2
          · cases hwk : work cs1 s cs2 with
            | ok o => rw [hwk] at k2; cases k2; rfl
            | error e => rw [hwk] at k2; obtain ⟨k, k2⟩ := k2; cases k2

/-- **C129**: with another number of arguments the programs only say how they are used. -/
theorem twopass_usage {β : Type} (cfg : AsmCfg) (work : List Cb → Asm → List Cb → Res β) (c : PbfCodec) (ch1 ch2 : Nat → Nat)
    (w : Sources) (args : List (List Char)) (ha : args.length ≠ 1) (r : Ran β) :
    TwoPass cfg work c ch1 ch2 w args r ↔ r = .usage := by
  match args, ha with
  | [], _ => exact Iff.rfl
  | _ :: _ :: _, _ => exact Iff.rfl

/-! ### The programs -/

theorem mpdumpCalls_both (wkt : List (Coords × List Coords) → List Char) (a b : List WholeCall) (la lb : List Line)
    (ha : mpdumpCalls wkt a = .ok la) (hb : mpdumpCalls wkt b = .ok lb) : mpdumpCalls wkt (a ++ b) = .ok (la ++ lb) := by
  induction a generalizing la with
  | nil => cases ha; exact hb
  | cons c a ih =>
    cases c with
    | call x => exact ih la ha
    | area x g =>
      simp only [mpdumpCalls, List.cons_append] at ha ⊢
      cases h1 : mpdumpArea wkt x g with
      | error e => rw [h1] at ha; cases ha
      | ok l1 =>
        simp only [h1] at ha ⊢
        cases h2 : mpdumpCalls wkt a with
        | error e => rw [h2] at ha; cases ha
        | ok l2 =>
          rw [h2] at ha
          cases ha
          rw [ih l2 h2]
          simp

theorem noise_ok (wkt : List (Coords × List Coords) → List Char) (env : WholeEnv) (ns : List Noisy) (ls : List Line)
    (h : mpdumpNoise wkt env ns = .ok ls) :
    ∃ cs ls', wholeCalls env (eventsOf ns) = .ok cs ∧ mpdumpCalls wkt cs = .ok ls' := by
  induction ns generalizing ls with
  | nil => exact ⟨[], [], rfl, rfl⟩
  | cons n ns ih =>
    cases n with
    | line l =>
      simp only [mpdumpNoise] at h
      cases hn : mpdumpNoise wkt env ns with
      | error e => rw [hn] at h; cases h
      | ok rest => exact ih rest hn
    | event e =>
      simp only [mpdumpNoise] at h
      cases h1 : wholeHook env e with
      | error f => rw [h1] at h; cases h
      | ok cs1 =>
        simp only [h1] at h
        cases h2 : mpdumpCalls wkt cs1 with
        | error f => rw [h2] at h; cases h
        | ok ls1 =>
          simp only [h2] at h
          cases hn : mpdumpNoise wkt env ns with
          | error e => rw [hn] at h; cases h
          | ok rest =>
            obtain ⟨cs, ls', k1, k2⟩ := ih rest hn
            refine ⟨cs1 ++ cs, ls1 ++ ls', ?_, ?_⟩
            · show wholeCalls env (e :: eventsOf ns) = _
              simp only [wholeCalls, h1, k1]
              rfl
            · exact mpdumpCalls_both wkt cs1 cs ls1 ls' h2 k2

theorem mpdump_fails {S T : Type} {pos : IdStore S Position} {neg : IdStore T Position}
    {okp okn : List (Nat × Position) → Prop} {up un : Nat → Res Position} {unset : Position}
    (wkt : List (Coords × List Coords) → List Char)
    (fp : Faithful pos okp up) (fn : Faithful neg okn un) (env : WholeEnv) (m : Meta)
    (ns : List Node) (ws : List Way) (rs : List Relation) (hd : DistinctObjects (fileOf ns ws rs))
    (hn : ∀ n ∈ ns, NegatableId n.obj.id) (hw : ∀ w ∈ ws, ∀ wn ∈ w.nodes, NegatableId wn.ref)
    (hokp : ∀ j, okp ((posOps (nodeCalls ns)).take j)) (hokn : ∀ j, okn ((negOps (nodeCalls ns)).take j))
    (hu : ∀ w ∈ ws, ∀ wn ∈ w.nodes, (∀ n ∈ ns, n.obj.id ≠ wn.ref) →
      (if 0 ≤ wn.ref then up wn.ref.toNat else un (-wn.ref).toNat) = .ok unset)
    (hws : ws ≠ []) (s : Asm) (h1 : Asm.AfterPass1 mpCfg (protocol m (fileOf ns ws rs)) s) (out : List Line)
    (h : mpdumpStdout wkt env pos neg s (protocol m (fileOf ns ws rs)) = .ok out) :
    ∃ areas, mpdumpMain wkt env pos neg s (protocol m (fileOf ns ws rs)) = .ok areas := by
  obtain ⟨ws', hl, hcfw⟩ := coordinates_file fp fn m ns ws rs (distinct_nodes hd) hn hw hokp hokn hu
  have hws' : ws' ≠ [] := by
    rintro rfl
    exact hws (List.length_eq_zero_iff.1 hl.length_eq)
  obtain ⟨s', t', ev, b, k1, k2⟩ := noisy_file m m ns ws' ws rs (distinct_located hl hd) hws' s h1
  unfold mpdumpMain secondPass
  unfold mpdumpStdout at h
  rw [hcfw] at h ⊢
  simp only [k1, k2] at h ⊢
  cases hn : mpdumpNoise wkt env (ev.map .event ++
      (warningLines (rs.filter fun r => decide (IsMultipolygon r ∧ LacksWay ws' r))).map .line ++
      (.allAvailable :: .next (.after .way) :: b.map .next : List AsmEvent).map .event) with
  | error e => rw [hn] at h; cases h
  | ok ls =>
    obtain ⟨cs, ls', q1, q2⟩ := noise_ok wkt env _ ls hn
    have hev : eventsOf (ev.map .event ++
        (warningLines (rs.filter fun r => decide (IsMultipolygon r ∧ LacksWay ws' r))).map .line ++
        (.allAvailable :: .next (.after .way) :: b.map .next : List AsmEvent).map .event) =
        ev ++ (.allAvailable :: .next (.after .way) :: b.map .next) := by
      have e1 : ∀ (l : List AsmEvent) (r : List Noisy), eventsOf (l.map .event ++ r) = l ++ eventsOf r := by
        intro l r
        induction l with
        | nil => rfl
        | cons a l ih => exact congrArg (a :: ·) ih
      have e2 : ∀ (l : List Line) (r : List Noisy), eventsOf (l.map .line ++ r) = eventsOf r := by
        intro l r
        induction l with
        | nil => rfl
        | cons a l ih => exact ih
      have e3 := e1 (.allAvailable :: .next (.after .way) :: b.map .next) []
      rw [List.append_nil] at e3
      rw [List.append_assoc, e1, e2, e3]
      simp [eventsOf]
    rw [hev] at q1
    exact ⟨ls', by rw [q1]; exact q2⟩

/-- **C129** with C92 and C124: `osmium_mpdump FILE` for a file with nodes, ways and relations in this order that has a way:
the program fails only if GEOS throws an exception while a multipolygon relation is put together; otherwise it prints a
line for each member of a multipolygon relation that is not a way, the areas of the file, and the warning.  (Partial: what
C92 leaves out; the file must be readable in the format of its name.) -/
theorem mpdump_program_partial {S T : Type} {pos : IdStore S Position} {neg : IdStore T Position}
    {okp okn : List (Nat × Position) → Prop} {up un : Nat → Res Position} {unset : Position}
    (wkt : List (Coords × List Coords) → List Char)
    (fp : Faithful pos okp up) (fn : Faithful neg okn un) (env : WholeEnv) (hsort : env.ringEnv.SortOk)
    (c : PbfCodec) (ch1 ch2 : Nat → Nat) (w : Sources) (name : List Char) (hp : PlainName name) (hs : ¬ IsStd name)
    (x : FileData) (hx : contentsOf w name = some x) (m : Meta)
    (ns : List Node) (ws : List Way) (rs : List Relation)
    (hr : DataReadsAs c (settingsOf name) x (protocol m (fileOf ns ws rs)))
    (hd : DistinctObjects (fileOf ns ws rs))
    (hn : ∀ n ∈ ns, NegatableId n.obj.id) (hw : ∀ w ∈ ws, ∀ wn ∈ w.nodes, NegatableId wn.ref)
    (hokp : ∀ j, okp ((posOps (nodeCalls ns)).take j)) (hokn : ∀ j, okn ((negOps (nodeCalls ns)).take j))
    (hu : ∀ w ∈ ws, ∀ wn ∈ w.nodes, (∀ n ∈ ns, n.obj.id ≠ wn.ref) →
      (if 0 ≤ wn.ref then up wn.ref.toNat else un (-wn.ref).toNat) = .ok unset)
    (hnodes : ∀ w ∈ ws, w.nodes ≠ []) (hidw : ∀ w ∈ ws, SmallId w.obj.id)
    (hidr : ∀ r ∈ rs, SmallId r.obj.id ∧ r.obj.id ≠ 0)
    (hv : ∀ w ∈ ws, ∀ t ∈ w.obj.tags, t.value ≠ "") (hws : ws ≠ [])
    (r : Ran (List Line)) (h : mpdumpProgram wkt env pos neg c ch1 ch2 w [name] r) :
    ∃ ws', List.Forall₂ (LocatedBy ns unset) ws ws' ∧
      (((∃ a b, r = .failed a b) ∧
          ∃ rel ∈ rs, IsMultipolygon rel ∧ HasItsWays ws' rel ∧ buildWhole env rel (wayMembers ws' rel) = .error geosError) ∨
       ∃ (ds : List (List Line)) (parts : List (List (List Line))),
          r = .done ((rs.filter fun r => decide (IsMultipolygon r)).flatMap ignoredLines ++ ds.flatten ++
            warningLines (rs.filter fun r => decide (IsMultipolygon r ∧ LacksWay ws r))) ∧
          ds.Perm ((ws'.filter fun w => decide (¬ InMultipolygon rs w) && decide (IsClosedArea w)).map (wayDump wkt) ++
            parts.flatten) ∧
          List.Forall₂ (fun r part => List.Forall₂ (RelationDump wkt ws' r) (areasOfRelation env ws' r) part)
            (rs.filter fun r => decide (IsMultipolygon r) && decide (HasItsWays ws' r)) parts) := by
  obtain ⟨cs1, s, h1, h2, h3⟩ := twopass_file _ _ c ch1 ch2 w name hp hs x _ hx hr r h
  have hwork : mpdumpWork wkt env pos neg cs1 s (protocol m (fileOf ns ws rs)) =
      mpdumpStdout wkt env pos neg s (protocol m (fileOf ns ws rs)) := by
    unfold mpdumpWork mpdumpStdout
    rw [h2 1]
    cases cfwRun pos neg (pos.empty, neg.empty) (protocol m (fileOf ns ws rs)) with
    | error e => rfl
    | ok out => simp only; cases noisyPass2 1 s out <;> rfl
  rw [hwork] at h3
  obtain ⟨ws', hl, hx⟩ := mpdump_partial wkt fp fn env hsort m ns ws rs hd hn hw hokp hokn hu hnodes hidw hidr hv s h1
  refine ⟨ws', hl, ?_⟩
  rcases hx with ⟨e1, e2⟩ | ⟨ds, parts, e1, e2, e3⟩
  · left
    refine ⟨?_, e2⟩
    rcases h3 with ⟨out, o1, -⟩ | ⟨-, k, hk⟩
    · exfalso
      obtain ⟨areas, ha⟩ := mpdump_fails wkt fp fn env m ns ws rs hd hn hw hokp hokn hu hws s h1 out o1
      rw [e1] at ha
      cases ha
    · exact ⟨_, _, hk⟩
  · right
    have ho := mpdump_stdout_partial wkt fp fn env m ns ws rs hd hn hw hokp hokn hu hws s h1 _ e1
    rcases h3 with ⟨out, o1, rfl⟩ | ⟨⟨e, o1⟩, -⟩
    · rw [ho] at o1
      cases o1
      exact ⟨ds, parts, rfl, e2, e3⟩
    · rw [ho] at o1; cases o1

/-- **C129** with C93 and C124: `osmium_toogr2 FILE` for such a file, with a library that accepts everything: the program
fails only if GEOS throws an exception while a multipolygon relation is put together; otherwise the library gets exactly the
buildings, and standard output has the lines for members that are not ways, the memory used, and the warning.  (Partial: as
`toogr2_partial` and `toogr2_stdout_partial`.) -/
theorem toogr2_twopass_partial {S T : Type} {pos : IdStore S Position} {neg : IdStore T Position}
    {okp okn : List (Nat × Position) → Prop} {up un : Nat → Res Position} {unset : Position}
    (early : Bool) (z : TypeSizes) (accepts : OgrArea → Bool) (hacc : ∀ f, accepts f = true)
    (fp : Faithful pos okp up) (fn : Faithful neg okn un) (env : WholeEnv) (hsort : env.ringEnv.SortOk)
    (c : PbfCodec) (ch1 ch2 : Nat → Nat) (w : Sources) (name : List Char) (hp : PlainName name) (hs : ¬ IsStd name)
    (x : FileData) (hx : contentsOf w name = some x) (m : Meta)
    (ns : List Node) (ws : List Way) (rs : List Relation)
    (hr : DataReadsAs c (settingsOf name) x (protocol m (fileOf ns ws rs)))
    (hd : DistinctObjects (fileOf ns ws rs))
    (hn : ∀ n ∈ ns, NegatableId n.obj.id) (hw : ∀ w ∈ ws, ∀ wn ∈ w.nodes, NegatableId wn.ref)
    (hokp : ∀ j, okp ((posOps (nodeCalls ns)).take j)) (hokn : ∀ j, okn ((negOps (nodeCalls ns)).take j))
    (hu : ∀ w ∈ ws, ∀ wn ∈ w.nodes, (∀ n ∈ ns, n.obj.id ≠ wn.ref) →
      (if 0 ≤ wn.ref then up wn.ref.toNat else un (-wn.ref).toNat) = .ok unset)
    (hnodes : ∀ w ∈ ws, w.nodes ≠ []) (hidw : ∀ w ∈ ws, |w.obj.id| < 2 ^ 30)
    (hidr : ∀ r ∈ rs, |r.obj.id| < 2 ^ 30 ∧ r.obj.id ≠ 0)
    (hv : ∀ w ∈ ws, ∀ t ∈ w.obj.tags, t.value ≠ "") (hws : ws ≠ [])
    (mps : List Relation) (hm : mps = rs.filter fun r => decide (IsMultipolygon r))
    (members : Nat) (hmem : members = (mps.map fun r => r.members.countP fun x => decide (x.type = 'w')).sum)
    (hz : 0 < z.member)
    (hfit : mps.length * (z.relInfo + z.relation) + members * (z.member + z.memberInfo) < 2 ^ 64)
    (r : Ran (List Char × List OgrArea)) (h : toogr2TwoPass early z accepts env pos neg c ch1 ch2 w [name] r) :
    ∃ ws', List.Forall₂ (LocatedBy ns unset) ws ws' ∧
      (((∃ a b, r = .failed a b) ∧
          ∃ rel ∈ rs, IsMultipolygon rel ∧ HasItsWays ws' rel ∧ buildWhole env rel (wayMembers ws' rel) = .error geosError) ∨
       ∃ (text numbers : List Char) (fs : List OgrArea) (parts : List (List OgrArea)),
          r = .done (text, fs) ∧
          text = asWritten (mps.flatMap ignoredLines) ++
            (if early then txt "Used memory: " ++ numbers else numbers ++ txt "Used memory: ") ++
            Text.natDec ((mps.length * (z.relInfo + z.relation) + members * (z.member + z.memberInfo)) / 1048576) ++
            txt " MB\n" ++ asWritten (warningLines (mps.filter fun r => decide (LacksWay ws r))) ∧
          fs.Perm ((ws'.filter fun w => decide (¬ InMultipolygon rs w) && decide (IsClosedArea w) &&
            decide (IsBuilding w.obj)).map wayBuilding ++ parts.flatten) ∧
          List.Forall₂ (fun r part => List.Forall₂ (RelationBuilding ws' r)
              ((areasOfRelation env ws' r).filter fun a => decide (IsBuilding a.1.obj)) part)
            (rs.filter fun r => decide (IsMultipolygon r) && decide (HasItsWays ws' r)) parts) := by
  obtain ⟨cs1, s, h1, h2, h3⟩ := twopass_file _ _ c ch1 ch2 w name hp hs x _ hx hr r h
  obtain ⟨ws', hl, hx⟩ := toogr2_partial accepts hacc fp fn env hsort m ns ws rs hd hn hw hokp hokn hu hnodes hidw hidr hv s h1
  obtain ⟨numbers, n1, -⟩ := toogr2_stdout_partial early z fp fn m ns ws rs hd hn hw hokp hokn hu hws s h1 mps hm members hmem
    hz hfit
  have hwork : toogr2Work early z accepts env pos neg cs1 s (protocol m (fileOf ns ws rs)) =
      (toogr2Main accepts env pos neg s (protocol m (fileOf ns ws rs))).bind fun fs =>
        (toogr2Stdout early z pos neg s (protocol m (fileOf ns ws rs))).map fun t => (t, fs) := by
    unfold toogr2Work toogr2Stdout
    rw [h2 1]
    cases toogr2Main accepts env pos neg s (protocol m (fileOf ns ws rs)) with
    | error e => rfl
    | ok fs =>
      simp only [Except.bind]
      cases cfwRun pos neg (pos.empty, neg.empty) (protocol m (fileOf ns ws rs)) with
      | error e => rfl
      | ok out => simp only; cases noisyPass2 1 s out <;> rfl
  rw [hwork, n1] at h3
  refine ⟨ws', hl, ?_⟩
  rcases hx with ⟨e1, e2⟩ | ⟨fs, parts, e1, e2, e3⟩
  · left
    refine ⟨?_, e2⟩
    rw [e1] at h3
    rcases h3 with ⟨out, o1, -⟩ | ⟨-, k, hk⟩
    · cases o1
    · exact ⟨_, _, hk⟩
  · right
    rw [e1] at h3
    rcases h3 with ⟨out, o1, rfl⟩ | ⟨⟨e, o1⟩, -⟩
    · cases o1
      exact ⟨_, numbers, fs, parts, rfl, rfl, e2, e3⟩
    · cases o1

/-- **C129** with C86 and C120: `osmium_relation_members FILE` for a file with nodes, ways and relations in this order
never fails: it prints the two headings, the memory used, and describes the relations as C86 says. -/
theorem members_program_partial (early : Bool) (z : TypeSizes) (c : PbfCodec) (ch1 ch2 : Nat → Nat) (w : Sources)
    (name : List Char) (hp : PlainName name) (hs : ¬ IsStd name) (x : FileData) (hx : contentsOf w name = some x) (m : Meta)
    (ns ws : List OsmObj) (rs : List Relation) (hn : ∀ o ∈ ns, o.type = .node) (hw : ∀ o ∈ ws, o.type = .way)
    (hr : DataReadsAs c (settingsOf name) x (protocol m (ns ++ ws ++ rs.map OsmObj.relation)))
    (hd : DistinctObjects (ns ++ ws ++ rs.map OsmObj.relation)) (hz : 0 < z.member)
    (members : Nat)
    (hmem : members = (rs.map fun r => r.members.countP fun x => decide (x.type = 'n' ∨ x.type = 'w' ∨ x.type = 'r')).sum)
    (hfit : rs.length * (z.relInfo + z.relation) + members * (z.member + z.memberInfo) < 2 ^ 64)
    (r : Ran (List Char)) (h : membersProgram early z c ch1 ch2 w [name] r) :
    let file := ns ++ ws ++ rs.map OsmObj.relation
    ∃ (order : List Relation) (numbers : List Char),
      order.Perm (rs.filter fun r => r.members ≠ [] ∧ HasAllMembers file r) ∧
      r = .done (txt "First pass (reading relations)...\n" ++
        (if early then txt "Used memory: " ++ numbers else numbers ++ txt "Used memory: ") ++
        Text.natDec ((rs.length * (z.relInfo + z.relation) + members * (z.member + z.memberInfo)) / 1048576) ++
        txt " MB\n" ++ txt "Second pass (reading members)...\n" ++
        asWritten (order.flatMap (describe file) ++
          if ns ≠ [] ∧ ws ≠ [] ∧ rs ≠ [] then (rs.filter fun r => ¬ HasAllMembers file r).flatMap (describe file)
          else [])) := by
  intro file
  obtain ⟨cs1, s, h1, -, h3⟩ := twopass_file _ _ c ch1 ch2 w name hp hs x _ hx hr r h
  obtain ⟨order, o1, o2⟩ := relation_members_partial m ns ws rs hn hw hd _ ⟨s, h1, rfl⟩
  obtain ⟨hrel, hend⟩ := asmRelations_file membersCfg m ns ws rs hn hw
  have hacc : rs.filter membersCfg.accept = rs := by
    rw [List.filter_eq_self]
    intro r _
    rfl
  rw [hacc] at hrel
  have hcount : wantedOf membersCfg 'n' rs + wantedOf membersCfg 'w' rs + wantedOf membersCfg 'r' rs = members := by
    rw [hmem]
    unfold wantedOf
    clear hmem hfit hr hd h h3 o1 o2 hrel hend hacc h1 file order hx
    induction rs with
    | nil => rfl
    | cons r rs ih =>
      simp only [List.map_cons, List.sum_cons]
      have h1 : ∀ l : List Member, l.countP (fun m => membersCfg.keep r m && m.type == 'n') +
          l.countP (fun m => membersCfg.keep r m && m.type == 'w') + l.countP (fun m => membersCfg.keep r m && m.type == 'r') =
          l.countP fun x => decide (x.type = 'n' ∨ x.type = 'w' ∨ x.type = 'r') := by
        intro l
        induction l with
        | nil => rfl
        | cons a l ih =>
          simp only [List.countP_cons]
          have hk : membersCfg.keep r a = true := rfl
          rw [hk]
          by_cases h1 : a.type = 'n'
          · have h2 : a.type ≠ 'w' := by rw [h1]; decide
            have h3 : a.type ≠ 'r' := by rw [h1]; decide
            simp [h1] at ih ⊢
            omega
          · by_cases h2 : a.type = 'w'
            · simp [h2] at ih ⊢
              omega
            · by_cases h3 : a.type = 'r'
              · simp [h3] at ih ⊢
                omega
              · simp [h1, h2, h3] at ih ⊢
                omega
      have := h1 r.members
      omega
  obtain ⟨u1, -⟩ := assembler_used membersCfg _ s z h1 (by
      rw [hrel]; exact hend) rs.length _ _ _ members (by rw [hrel]) rfl rfl rfl (by rw [hrel]; exact hcount.symm) hz hfit
  have hwork : ∃ p, membersPass2 s (protocol m (ns ++ ws ++ rs.map OsmObj.relation)) = .ok p ∧
      p.2 = order.flatMap (describe file) ++
        if ns ≠ [] ∧ ws ≠ [] ∧ rs ≠ [] then (rs.filter fun r => ¬ HasAllMembers file r).flatMap (describe file) else [] := by
    cases hp : membersPass2 s (protocol m (ns ++ ws ++ rs.map OsmObj.relation)) with
    | error e => rw [hp] at o2; cases o2
    | ok p =>
      rw [hp] at o2
      refine ⟨p, rfl, ?_⟩
      exact Except.ok.inj o2
  obtain ⟨p, p1, p2⟩ := hwork
  refine ⟨order, s.usedText z, o1, ?_⟩
  unfold membersWork at h3
  rw [p1] at h3
  rcases h3 with ⟨out, q1, rfl⟩ | ⟨⟨e, q1⟩, -⟩
  · simp only [Except.ok.injEq] at q1
    rw [← q1, p2, u1]
  · cases q1

/-- **C129**: none of the three programs ever ends well with standard input. -/
theorem programs_stdin {S T : Type} (wkt : List (Coords × List Coords) → List Char) (early : Bool) (z : TypeSizes)
    (accepts : OgrArea → Bool) (env : WholeEnv) (pos : IdStore S Position) (neg : IdStore T Position) (c : PbfCodec)
    (ch1 ch2 : Nat → Nat) (w : Sources) (name : List Char) (hs : IsStd name) :
    (∀ r, mpdumpProgram wkt env pos neg c ch1 ch2 w [name] r → ∃ cs1, r = .failed cs1 []) ∧
    (∀ r, toogr2TwoPass early z accepts env pos neg c ch1 ch2 w [name] r → ∃ cs1, r = .failed cs1 []) ∧
    (∀ r, membersProgram early z c ch1 ch2 w [name] r → ∃ cs1, r = .failed cs1 []) :=
  ⟨fun r h => twopass_stdin _ _ c ch1 ch2 w name hs r h, fun r h => twopass_stdin _ _ c ch1 ch2 w name hs r h,
   fun r h => twopass_stdin _ _ c ch1 ch2 w name hs r h⟩

/-! ### There is always an end -/

theorem afterPass1_exists (cfg : AsmCfg) (calls : List Cb) : ∃ s, Asm.AfterPass1 cfg calls s := by
  by_cases h : ((Asm.new cfg).pass1 cfg calls).2
  · let p := (Asm.new cfg).pass1 cfg calls
    refine ⟨{ p.1 with infos := fun t => (p.1.infos t).mergeSort (fun a b => a.id ≤ b.id) }, ?_⟩
    unfold Asm.AfterPass1
    simp only [h, if_true]
    refine ⟨rfl, rfl, fun t => ⟨List.mergeSort_perm _ _, ?_⟩⟩
    have := List.pairwise_mergeSort (le := fun a b : MemberInfo => decide (a.id ≤ b.id))
      (fun a b c h1 h2 => by simp at h1 h2 ⊢; omega) (fun a b => by simp; omega) (p.1.infos t)
    simpa using this
  · exact ⟨((Asm.new cfg).pass1 cfg calls).1, by unfold Asm.AfterPass1; simp [h]⟩

/-- Whatever the arguments and the data are, the programs come to an end. -/
theorem twopass_total {β : Type} (cfg : AsmCfg) (work : List Cb → Asm → List Cb → Res β) (c : PbfCodec) (ch1 ch2 : Nat → Nat)
    (w : Sources) (args : List (List Char)) : ∃ r, TwoPass cfg work c ch1 ch2 w args r := by
  match args with
  | [] => exact ⟨.usage, rfl⟩
  | _ :: _ :: _ => exact ⟨.usage, rfl⟩
  | [name] =>
    simp only [TwoPass]
    rcases w.readOnce c (FileInfo.ofName name) pass1Skips pass1Stops ch1 with ⟨⟨cs1, e1⟩, w1⟩
    cases e1 with
    | threw e => exact ⟨_, rfl⟩
    | returned =>
      obtain ⟨s, hs⟩ := afterPass1_exists cfg cs1
      simp only
      rcases w1.readOnce c (FileInfo.ofName name) (fun _ => false) (fun _ => false) ch2 with ⟨⟨cs2, e2⟩, w2⟩
      cases e2 with
      | threw e => exact ⟨_, s, hs, 0, rfl⟩
      | returned =>
        cases hw : work cs1 s cs2 with
        | ok out => exact ⟨.done out, s, hs, by simp [hw]⟩
        | error e => exact ⟨.failed cs1 (cs2.take 0), s, hs, by simp only [hw]; exact ⟨0, rfl⟩⟩

/-- A small file. (example, no counterpart in /repo) -/
def twoXml : List XEv :=
  [.start "osm" [("version", "0.6")],
   .start "node" [("id", "1"), ("version", "1"), ("lat", "1"), ("lon", "2")], .stop "node",
   .start "way" [("id", "2"), ("version", "1")], .start "nd" [("ref", "1")], .stop "nd", .stop "way",
   .start "relation" [("id", "3"), ("version", "1")], .start "member" [("type", "way"), ("ref", "2"), ("role", "outer")],
   .stop "member", .start "tag" [("k", "a"), ("v", "b")], .stop "tag", .stop "relation", .stop "osm"]

/-- The objects in it. (example, no counterpart in /repo) -/
def twoObjs : List OsmObj × List OsmObj × List Relation :=
  ([.node ⟨{ Obj.new with id := 1, version := 1 }, ⟨20000000, 10000000⟩⟩],
   [.way ⟨{ Obj.new with id := 2, version := 1 }, [⟨1, ⟨2147483647, 2147483647⟩⟩]⟩],
   [⟨{ Obj.new with id := 3, version := 1, tags := [⟨"a", "b"⟩] }, [⟨'w', 2, "outer"⟩]⟩])

/-- A directory with the file; the same data comes from standard input. (example, no counterpart in /repo) -/
def twoSources : Sources :=
  ⟨fun n => if n = "f.osm".toList then some (.xml twoXml) else none, fun _ _ => .xml [], fun _ => .xml [], some (.xml twoXml)⟩

/-- `osmium_relation_members f.osm` ends well and describes the relation; with `-` it fails. -/
example (r : Ran (List Char)) (h : membersProgram true ⟨1, 1, 1, 1⟩ demoPbfCodec (fun _ => 7) (fun _ => 9) twoSources
    ["f.osm".toList] r) :
    ∃ a b, r = .done (a ++ txt "Second pass (reading members)...\n" ++ b) ∧
      b = txt "Relation 3\n  a=b\n  [0] Member way 2 with role 'outer'\n\n" := by
  obtain ⟨order, numbers, h1, h2⟩ := members_program_partial true ⟨1, 1, 1, 1⟩ demoPbfCodec (fun _ => 7) (fun _ => 9) twoSources
    "f.osm".toList (by decide) (by decide) (.xml twoXml) rfl (Meta.new false) twoObjs.1 twoObjs.2.1 twoObjs.2.2 (by decide)
    (by decide) ⟨by decide, fun _ => by
      show xmlParse .osm (fun _ => false) ⟨twoXml, none⟩ = _
      decide +kernel⟩ (by unfold DistinctObjects; decide) (by decide) 1 (by decide) (by decide) r h
  have ho : order = twoObjs.2.2 := by
    have e : (twoObjs.2.2.filter fun r => r.members ≠ [] ∧
      HasAllMembers (twoObjs.1 ++ twoObjs.2.1 ++ twoObjs.2.2.map .relation) r) = twoObjs.2.2 := by decide +kernel
    rw [e] at h1
    exact h1.eq_singleton
  refine ⟨_, _, h2, ?_⟩
  rw [ho]
  decide +kernel

example : ∃ r, membersProgram true ⟨1, 1, 1, 1⟩ demoPbfCodec (fun _ => 7) (fun _ => 9) twoSources ["f.osm".toList] r :=
  twopass_total _ _ _ _ _ _ _

/-- With standard input (in PBF format) the first pass can work, so that the failure is in the second pass: nothing is in
the file. -/
example : ∃ r, membersProgram true ⟨1, 1, 1, 1⟩ demoPbfCodec (fun _ => 7) (fun _ => 9)
    { twoSources with stdin := some (.pbf []) } ["-".toList] r ∧ r = .failed [.final] [] := by
  obtain ⟨r, h⟩ := twopass_total membersCfg (membersWork true ⟨1, 1, 1, 1⟩) demoPbfCodec (fun _ => 7) (fun _ => 9)
    { twoSources with stdin := some (.pbf []) } ["-".toList]
  refine ⟨r, h, ?_⟩
  obtain ⟨cs1, hc⟩ := twopass_stdin _ _ _ _ _ _ _ (.inr rfl) r h
  have he : ({ twoSources with stdin := some (.pbf []) } : Sources).readOnce demoPbfCodec (FileInfo.ofName "-".toList) pass1Skips
      pass1Stops (fun _ => 7) = (([.final], .returned), { twoSources with stdin := none }) := by
    rw [ofName_std (.inr rfl)]
    have hp : ¬ (fileProtocol [] = "http".toList ∨ fileProtocol [] = "https".toList) := by decide
    unfold Sources.readOnce Sources.input
    rw [if_neg (by decide)]
    simp only [hp, if_false, if_true, FileData.readBy]
    unfold pbfParseFor
    rw [readBlobs_empty]
    rfl
  simp only [TwoPass, he] at h
  obtain ⟨s, -, h⟩ := h
  subst hc
  split at h
  · obtain ⟨k, h⟩ := h
    rw [(Ran.failed.inj h).1]
  · split at h
    · cases h
    · obtain ⟨k, h⟩ := h
      rw [(Ran.failed.inj h).1]

end Osmium
