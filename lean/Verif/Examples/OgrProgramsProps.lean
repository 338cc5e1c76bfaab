import Verif.Examples.OgrPrograms
import Verif.Examples.ToOgrProps
import Verif.Examples.AreasProps

/-
C122: what osmium_toogr, osmium_to_postgis and osmium_toogr2 ask of the OGR library, and how they end.
-/
namespace Osmium
open Spec Text

namespace Spec

/-- The library does all it is asked to. (specification, no counterpart in /repo) -/
def Obliging (lib : OgrLib) : Prop := ∀ asked r, lib asked r = true

/-- The features asked for in a layer. (specification, no counterpart in /repo) -/
def inLayer (name : String) (asked : List OgrReq) : List OgrFeature :=
  asked.filterMap fun | .feature l f => if l = name then some f else none | _ => none

/-- The name of the file to read: standard input if there is none. (specification, no counterpart in /repo) -/
def ogrInput (args : List (List Char)) : List Char := args.head?.getD "-".toList

/-- Requests whose failure must end a program.  (The SQL commands fail if the table exists, and the transaction is only
used to be faster; to close the data source has no result.) (specification, no counterpart in /repo) -/
def MustHeed : OgrReq → Prop
  | .sql _ => False
  | .start _ => False
  | .commit _ => False
  | .close => False
  | _ => True

/-- A program heeds the library: something that the library refused, and whose result can be seen, was the last thing
that was asked for, and the status is 1 then; and if the status is 0 nothing of that kind was refused, and the data source
was closed if it was asked for anything. (specification, no counterpart in /repo) -/
def Heeds (lib : OgrLib) (e : OgrEnd) : Prop :=
  (∀ pre r post, e.asked = pre ++ r :: post → MustHeed r → lib pre r = false → post = [] ∧ e.status = some 1) ∧
  (e.status = some 0 → e.asked = [] ∨ e.asked.getLast? = some .close) ∧
  (e.status ≠ some 0 → OgrReq.close ∉ e.asked)

end Spec

/-! ### Requests -/

theorem mustHeed_checked {r : OgrReq} (h : MustHeed r) : r.checked = true := by
  cases r <;> first | rfl | exact h.elim

/-- All requests before were granted. (helper for proofs, no counterpart in /repo) -/
def Granted' (lib : OgrLib) (asked : List OgrReq) : Prop :=
  ∀ pre r post, asked = pre ++ r :: post → r.checked = true → lib pre r = true

theorem Granted'.snoc {lib : OgrLib} {asked : List OgrReq} (h : Granted' lib asked) {r : OgrReq}
    (hr : r.checked = true → lib asked r = true) : Granted' lib (asked ++ [r]) := by
  intro pre x post e hc
  rcases List.eq_nil_or_concat post with rfl | ⟨post', y, rfl⟩
  · have := List.append_inj' e (by simp)
    obtain ⟨rfl, h2⟩ := this
    cases h2
    exact hr hc
  · rw [List.concat_eq_append] at e
    have e' : asked ++ [r] = (pre ++ x :: post') ++ [y] := by rw [e]; simp
    have := List.append_inj' e' (by simp)
    exact h pre x post' this.1 hc

/-- Everything but the last request was granted, and the last one was refused. (helper for proofs, no counterpart in
/repo) -/
def Refused (lib : OgrLib) (asked : List OgrReq) : Prop :=
  ∃ pre r, asked = pre ++ [r] ∧ Granted' lib pre ∧ r.checked = true ∧ lib pre r = false

theorem ogrAsk_spec (lib : OgrLib) (rs asked : List OgrReq) (h : Granted' lib asked) :
    ((ogrAsk lib asked rs).2 = true → (ogrAsk lib asked rs).1 = asked ++ rs ∧ Granted' lib (asked ++ rs)) ∧
    ((ogrAsk lib asked rs).2 = false → Refused lib (ogrAsk lib asked rs).1 ∧
      ∃ k, (ogrAsk lib asked rs).1 = asked ++ rs.take k) := by
  induction rs generalizing asked with
  | nil => exact ⟨fun _ => ⟨by simp [ogrAsk], by simpa using h⟩, fun h => by simp [ogrAsk] at h⟩
  | cons r rs ih =>
    rw [ogrAsk]
    by_cases hc : r.checked = true ∧ lib asked r = false
    · have : (r.checked && !lib asked r) = true := by simp [hc]
      simp only [this, if_true]
      exact ⟨fun h => by simp at h, fun _ => ⟨⟨asked, r, rfl, h, hc.1, hc.2⟩, 1, by simp⟩⟩
    · have : (r.checked && !lib asked r) = false := by
        cases h1 : r.checked <;> cases h2 : lib asked r <;> simp_all
      simp only [this, Bool.false_eq_true, if_false]
      have hg : Granted' lib (asked ++ [r]) := h.snoc fun h1 => by
        cases h2 : lib asked r
        · exact absurd ⟨h1, h2⟩ hc
        · rfl
      obtain ⟨a, b⟩ := ih (asked ++ [r]) hg
      constructor
      · intro h
        obtain ⟨c, d⟩ := a h
        rw [List.append_assoc] at c d
        exact ⟨c, d⟩
      · intro h
        obtain ⟨c, k, d⟩ := b h
        exact ⟨c, k + 1, by rw [d]; simp⟩

theorem ogrAsk_all {lib : OgrLib} (h : Obliging lib) (asked rs : List OgrReq) :
    ogrAsk lib asked rs = (asked ++ rs, true) := by
  induction rs generalizing asked with
  | nil => simp [ogrAsk]
  | cons r rs ih =>
    rw [ogrAsk, h asked r]
    simp only [Bool.not_true, Bool.and_false, Bool.false_eq_true, if_false]
    rw [ih]
    simp

/-- No request closes the data source. (helper for proofs, no counterpart in /repo) -/
def NoClose (l : List OgrReq) : Prop := OgrReq.close ∉ l

theorem ogrCalls_spec {σ γ : Type} (lib : OgrLib) (step : σ → γ → Res (σ × List OgrReq))
    (hstep : ∀ s c s' rs, step s c = .ok (s', rs) → NoClose rs) (calls : List γ) :
    ∀ (s : σ) (asked : List OgrReq) (p : List OgrReq × Bool), Granted' lib asked → NoClose asked →
      ogrCalls lib step s asked calls = .ok p →
      NoClose p.1 ∧ (p.2 = true → Granted' lib p.1) ∧ (p.2 = false → Refused lib p.1) := by
  induction calls with
  | nil =>
    intro s asked p h hc e
    cases e
    exact ⟨hc, fun _ => h, fun h => by simp at h⟩
  | cons c cs ih =>
    intro s asked p h hc e
    rw [ogrCalls] at e
    cases hs : step s c with
    | error x => rw [hs] at e; cases e
    | ok q =>
      rw [hs] at e
      simp only [Except.bind] at e
      obtain ⟨a, b⟩ := ogrAsk_spec lib q.2 asked h
      have hn := hstep s c q.1 q.2 (by rw [hs])
      cases hb : (ogrAsk lib asked q.2).2
      · simp only [hb, Bool.false_eq_true, if_false] at e
        obtain ⟨b1, k, b2⟩ := b hb
        cases e
        refine ⟨?_, fun h => by simp at h, fun _ => b1⟩
        show NoClose (ogrAsk lib asked q.2).1
        rw [b2]
        intro hm
        rcases List.mem_append.1 hm with h1 | h1
        · exact hc h1
        · exact hn (List.mem_of_mem_take h1)
      · simp only [hb, if_true] at e
        obtain ⟨a1, a2⟩ := a hb
        rw [a1] at e
        refine ih _ _ _ a2 ?_ e
        intro hm
        rcases List.mem_append.1 hm with h1 | h1
        · exact hc h1
        · exact hn h1

theorem granted_nil (lib : OgrLib) : Granted' lib [] := fun pre r post e => by simp at e

theorem heeds_refused {lib : OgrLib} {asked : List OgrReq} {out : List Char} (h : Refused lib asked)
    (hc : NoClose asked) : Heeds lib ⟨some 1, out, asked⟩ := by
  obtain ⟨p0, r0, rfl, hg, h1, h2⟩ := h
  refine ⟨?_, by simp, fun _ => hc⟩
  intro pre r post e hr hl
  simp only at e
  rcases List.eq_nil_or_concat post with rfl | ⟨post', y, rfl⟩
  · exact ⟨rfl, rfl⟩
  · rw [List.concat_eq_append] at e
    have e' : p0 ++ [r0] = (pre ++ r :: post') ++ [y] := by rw [e]; simp
    have := hg pre r post' (List.append_inj' e' (by simp)).1 (mustHeed_checked hr)
    rw [hl] at this
    cases this

theorem heeds_granted {lib : OgrLib} {asked : List OgrReq} {st : Option Nat} {out : List Char} (h : Granted' lib asked)
    (h0 : st = some 0 → asked = [] ∨ asked.getLast? = some .close) (h1 : st ≠ some 0 → NoClose asked) :
    Heeds lib ⟨st, out, asked⟩ := by
  refine ⟨?_, h0, h1⟩
  intro pre r post e hr hl
  have := h pre r post e (mustHeed_checked hr)
  rw [hl] at this
  cases this

theorem ogrRun_heeds {σ γ : Type} (lib : OgrLib) (setup : List OgrReq) (hset : NoClose setup)
    (step : σ → γ → Res (σ × List OgrReq)) (hstep : ∀ s c s' rs, step s c = .ok (s', rs) → NoClose rs) (s : σ)
    (calls : List γ) (ended : ParseEnd) (e : OgrEnd) (h : ogrRun lib setup step s calls ended = .ok e) : Heeds lib e := by
  unfold ogrRun at h
  obtain ⟨a, b⟩ := ogrAsk_spec lib setup [] (granted_nil lib)
  cases hb : (ogrAsk lib [] setup).2
  · simp only [hb, Bool.false_eq_true, if_false] at h
    cases h
    obtain ⟨b1, k, b2⟩ := b hb
    refine heeds_refused b1 ?_
    rw [b2]
    exact fun hm => hset (List.mem_of_mem_take (by simpa using hm))
  · simp only [hb, if_true] at h
    obtain ⟨a1, a2⟩ := a hb
    rw [a1] at h
    cases hr : ogrCalls lib step s ([] ++ setup) calls with
    | error x => rw [hr] at h; cases h
    | ok p =>
      rw [hr] at h
      obtain ⟨c1, c2, c3⟩ := ogrCalls_spec lib step hstep calls s _ p a2 (by simpa using hset) hr
      simp only [Except.map, Except.ok.injEq] at h
      subst h
      cases hp : p.2
      · simp only [Bool.false_eq_true, if_false]
        exact heeds_refused (c3 hp) c1
      · simp only [if_true]
        split
        · exact heeds_granted ((c2 hp).snoc fun h => by simp [OgrReq.checked] at h) (by simp) (by simp)
        · exact heeds_granted (c2 hp) (by simp) (fun _ => c1)

/-! ### The programs heed the library -/

theorem toogrCall_noClose {S T : Type} (pos : IdStore S Position) (neg : IdStore T Position) (s : S × T) (c : Cb)
    (s' : S × T) (rs : List OgrReq) (h : toogrCall pos neg s c = .ok (s', rs)) : NoClose rs := by
  unfold toogrCall at h
  cases hc : cfwStep pos neg s c with
  | error x => rw [hc] at h; cases h
  | ok p =>
    rw [hc] at h
    cases h
    unfold NoClose toogrReqs
    split <;> simp

theorem pgCall_noClose (s : Unit) (c : Cb) (s' : Unit) (rs : List OgrReq) (h : pgCall s c = .ok (s', rs)) :
    NoClose rs := by
  unfold pgCall at h
  unfold NoClose
  split at h <;> cases h <;> simp

theorem toogr2Call_noClose (s : Unit) (c : WholeCall) (s' : Unit) (rs : List OgrReq)
    (h : toogr2Call s c = .ok (s', rs)) : NoClose rs := by
  unfold NoClose
  cases c with
  | area a g =>
    simp only [toogr2Call] at h
    cases hc : toogr2Area a g with
    | error x => rw [hc] at h; cases h
    | ok p => rw [hc] at h; cases h; simp
  | call c => cases h; simp

theorem heeds_nothing (lib : OgrLib) (st : Option Nat) (out : List Char) : Heeds lib ⟨st, out, []⟩ :=
  heeds_granted (granted_nil lib) (fun _ => .inl rfl) (fun _ h => by simp at h)

/-- **C122.**  osmium_toogr heeds the library, whatever the options, the arguments and the file are. -/
theorem toogr_heeds {S T : Type} (lib : OgrLib) (pos : IdStore S Position) (neg : IdStore T Position)
    (read : FileInfo → List Cb × ParseEnd) (opts : List ToogrOpt) (args : List (List Char)) (e : OgrEnd)
    (h : toogrProgram lib pos neg read opts args = .ok e) : Heeds lib e := by
  unfold toogrProgram at h
  split at h
  · cases h; exact heeds_nothing lib _ _
  · split at h
    · cases h; exact heeds_nothing lib _ _
    · exact ogrRun_heeds lib _ (by simp [NoClose, toogrSetup]) _ (toogrCall_noClose pos neg) _ _ _ _ h

/-- **C122.**  So does osmium_to_postgis: but it does not look whether tables are made, and whether the transaction
is committed. -/
theorem to_postgis_heeds_partial (lib : OgrLib) (read : FileInfo → List Cb × ParseEnd) (opts : List PgOpt)
    (args : List (List Char)) (e : OgrEnd) (h : pgProgram lib read opts args = .ok e) : Heeds lib e := by
  unfold pgProgram at h
  split at h
  · cases h; exact heeds_nothing lib _ _
  · split at h
    · rename_i file name
      simp only at h
      cases hr : ogrRun lib (pgSetup ("PG:dbname=".toList ++ name)) pgCall () (read (FileInfo.ofName file)).1
          (read (FileInfo.ofName file)).2 with
      | error x => rw [hr] at h; cases h
      | ok e' =>
        rw [hr] at h
        cases h
        have hset : NoClose (pgSetup ("PG:dbname=".toList ++ name)) := by simp [NoClose, pgSetup]
        have hh := ogrRun_heeds lib _ hset _ pgCall_noClose _ _ _ _ hr
        exact hh
    · cases h; exact heeds_nothing lib _ _

/-- **C122.**  So does osmium_toogr2. -/
theorem toogr2_heeds {S T : Type} (lib : OgrLib) (env : WholeEnv) (pos : IdStore S Position) (neg : IdStore T Position)
    (s : Asm) (read1 read2 : FileInfo → List Cb × ParseEnd) (args : List (List Char)) (e : OgrEnd)
    (h : toogr2Program lib env pos neg s read1 read2 args = .ok e) : Heeds lib e := by
  have hset : NoClose toogr2Setup := by simp [NoClose, toogr2Setup]
  obtain ⟨a, b⟩ := ogrAsk_spec lib toogr2Setup [] (granted_nil lib)
  unfold toogr2Program at h
  split at h
  · split at h
    · rename_i hx
      cases h
      obtain ⟨a1, a2⟩ := a hx.1
      rw [a1]
      exact heeds_granted a2 (by simp) (fun _ => by simpa using hset)
    · split at h
      · rename_i file _ _
        cases hs : secondPass env pos neg s (read2 (FileInfo.ofName file)).1 with
        | error x => rw [hs] at h; cases h
        | ok cs =>
          rw [hs] at h
          exact ogrRun_heeds lib _ hset _ toogr2Call_noClose _ _ _ _ h
      · rename_i hb
        cases h
        obtain ⟨b1, k, b2⟩ := b (by simpa using hb)
        refine heeds_refused b1 ?_
        rw [b2]
        exact fun hm => hset (List.mem_of_mem_take (by simpa using hm))
  · cases h; exact heeds_nothing lib _ _

theorem ogrRun_read {σ γ : Type} {lib : OgrLib} {setup : List OgrReq} {step : σ → γ → Res (σ × List OgrReq)} {s : σ}
    {calls : List γ} {ended : ParseEnd} {e : OgrEnd} (h : ogrRun lib setup step s calls ended = .ok e)
    (h0 : e.status = some 0) : ended = .returned := by
  unfold ogrRun at h
  split at h
  · cases hr : ogrCalls lib step s (ogrAsk lib [] setup).1 calls with
    | error x => rw [hr] at h; cases h
    | ok p =>
      rw [hr] at h
      simp only [Except.map, Except.ok.injEq] at h
      subst h
      split at h0
      · split at h0
        · assumption
        · simp at h0
      · simp at h0
  · cases h; simp at h0

/-- **C122.**  If the programs end with 0 and have asked for anything, the file was read to its end (by osmium_toogr2:
twice). -/
theorem ogr_read_errors {S T : Type} (lib : OgrLib) (env : WholeEnv) (pos : IdStore S Position) (neg : IdStore T Position)
    (s : Asm) (read read' : FileInfo → List Cb × ParseEnd) (args : List (List Char)) (e : OgrEnd)
    (h0 : e.status = some 0) (hne : e.asked ≠ []) :
    (∀ opts, toogrProgram lib pos neg read opts args = .ok e → (read (FileInfo.ofName (ogrInput args))).2 = .returned) ∧
    (∀ opts, pgProgram lib read opts args = .ok e → (read (FileInfo.ofName (ogrInput args))).2 = .returned) ∧
    (toogr2Program lib env pos neg s read read' args = .ok e →
      (read (FileInfo.ofName (ogrInput args))).2 = .returned ∧
      (read' (FileInfo.ofName (ogrInput args))).2 = .returned) := by
  refine ⟨fun opts h => ?_, fun opts h => ?_, fun h => ?_⟩
  · unfold toogrProgram at h
    split at h
    · cases h; exact absurd rfl hne
    · split at h
      · cases h; exact absurd rfl hne
      · rename_i i o hn
        have : ogrInput args = i := by
          match args, hn with
          | [], hn => cases hn; rfl
          | [_], hn => cases hn; rfl
          | [_, _], hn => cases hn; rfl
        rw [this]
        exact ogrRun_read h h0
  · unfold pgProgram at h
    split at h
    · cases h; exact absurd rfl hne
    · split at h
      · rename_i file name
        simp only at h
        cases hr : ogrRun lib (pgSetup ("PG:dbname=".toList ++ name)) pgCall () (read (FileInfo.ofName file)).1
            (read (FileInfo.ofName file)).2 with
        | error x => rw [hr] at h; cases h
        | ok e' =>
          rw [hr] at h
          cases h
          exact ogrRun_read hr h0
      · cases h; exact absurd rfl hne
  · unfold toogr2Program at h
    split at h
    · rename_i file
      split at h
      · cases h; simp at h0
      · rename_i hx
        split at h
        · rename_i hy
          refine ⟨?_, ?_⟩
          · by_contra hz
            exact hx ⟨hy, hz⟩
          · cases hs : secondPass env pos neg s (read' (FileInfo.ofName file)).1 with
            | error x => rw [hs] at h; cases h
            | ok cs =>
              rw [hs] at h
              exact ogrRun_read h h0
        · cases h; simp at h0
    · cases h; exact absurd rfl hne

/-! ### What is asked for -/

theorem inLayer_append (name : String) (a b : List OgrReq) : inLayer name (a ++ b) = inLayer name a ++ inLayer name b :=
  List.filterMap_append

theorem toogr_calls_all {S T : Type} {lib : OgrLib} (h : Obliging lib) (pos : IdStore S Position)
    (neg : IdStore T Position) (calls : List Cb) :
    ∀ (c : S × T) (s res : List OgrFeature × List OgrFeature) (asked : List OgrReq),
      toogrRun pos neg (fun _ => true) c s calls = .ok res →
      ∃ feats, ogrCalls lib (toogrCall pos neg) c asked calls = .ok (asked ++ feats, true) ∧
        res = (s.1 ++ inLayer "postboxes" feats, s.2 ++ inLayer "roads" feats) ∧
        ∀ r ∈ feats, ∃ f, r = .feature "postboxes" f ∨ r = .feature "roads" f := by
  induction calls with
  | nil =>
    intro c s res asked e
    cases e
    exact ⟨[], by simp [ogrCalls], by simp [inLayer], by simp⟩
  | cons call calls ih =>
    intro c s res asked e
    rw [toogrRun] at e
    rw [ogrCalls]
    cases hs : cfwStep pos neg c call with
    | error x => rw [hs] at e; cases e
    | ok p =>
      rw [hs] at e
      have hc : toogrCall pos neg c call = .ok (p.1, toogrReqs p.2) := by
        unfold toogrCall
        rw [hs]
        rfl
      rw [hc]
      simp only [Except.bind, ogrAsk_all h, if_true]
      have hstep : toogrStep (fun _ => true) s p.2 =
          .ok (s.1 ++ inLayer "postboxes" (toogrReqs p.2), s.2 ++ inLayer "roads" (toogrReqs p.2)) := by
        generalize p.2 = q
        have hrest : ∀ x, toogrReqs x = [] → toogrStep (fun _ => true) s x = .ok s →
            toogrStep (fun _ => true) s x =
              .ok (s.1 ++ inLayer "postboxes" (toogrReqs x), s.2 ++ inLayer "roads" (toogrReqs x)) := by
          intro x h1 h2
          rw [h1, h2]
          simp [inLayer]
        rcases q with m | t | o | t | _
        · exact hrest _ rfl rfl
        · exact hrest _ rfl rfl
        · cases o with
          | node n => cases hn : toogrNode n <;> simp [toogrStep, toogrReqs, hn, createFeature, inLayer, Except.map]
          | way w => cases hn : toogrWay w <;> simp [toogrStep, toogrReqs, hn, createFeature, inLayer, Except.map]
          | relation r => exact hrest _ rfl rfl
        · exact hrest _ rfl rfl
        · exact hrest _ rfl rfl
      simp only [hstep] at e
      obtain ⟨feats, f1, f2, f3⟩ := ih p.1 _ res (asked ++ toogrReqs p.2) e
      refine ⟨toogrReqs p.2 ++ feats, ?_, ?_, ?_⟩
      · rw [f1, List.append_assoc]
      · rw [f2, inLayer_append, inLayer_append]
        simp
      · intro r hr
        rcases List.mem_append.1 hr with hr | hr
        · unfold toogrReqs at hr
          split at hr
          · obtain ⟨f, -, rfl⟩ := List.mem_map.1 hr
            exact ⟨f, .inl rfl⟩
          · obtain ⟨f, -, rfl⟩ := List.mem_map.1 hr
            exact ⟨f, .inr rfl⟩
          · simp at hr
        · exact f3 r hr

namespace Spec

/-- The last format given, or SQLite. (specification, no counterpart in /repo) -/
def ogrFormat (opts : List ToogrOpt) : List Char :=
  ((opts.filterMap fun | .format f => some f | _ => none).getLast?).getD "SQLite".toList

/-- The name of the file to write. (specification, no counterpart in /repo) -/
def ogrOutput (args : List (List Char)) : List Char := args[1]?.getD "ogr_out".toList

end Spec

theorem toogrOptions_eq (opts : List ToogrOpt) (h : ∀ o ∈ opts, o ≠ .help ∧ o ≠ .bad) (d : List Char) :
    toogrOptions d opts = .ok (((opts.filterMap fun | .format f => some f | _ => none).getLast?).getD d) := by
  induction opts generalizing d with
  | nil => rfl
  | cons o os ih =>
    have hos := fun o ho => h o (List.mem_cons_of_mem _ ho)
    cases o with
    | help => exact absurd rfl (h _ (by simp)).1
    | bad => exact absurd rfl (h _ (by simp)).2
    | format f =>
      rw [toogrOptions, ih hos f, List.filterMap_cons]
      simp only [List.getLast?_cons, Option.getD_some]

theorem toogrNames_eq (args : List (List Char)) (h : args.length ≤ 2) :
    toogrNames args = some (ogrInput args, ogrOutput args) := by
  match args, h with
  | [], _ => rfl
  | [_], _ => rfl
  | [_, _], _ => rfl
  | _ :: _ :: _ :: _, h => simp at h

/-- **C122.**  osmium_toogr with any formats and up to two names, for a file in the usual order without negative ids of
nodes (partial as C91), and a library that does all it is asked to: the program ends with 0; it makes a data source of
the last format with the second name, two layers with two fields each, exactly the post boxes in the first and the roads
of the file with the first name in the second, in the order of the file, and nothing else, and then closes it. -/
theorem toogr_program_partial {lib : OgrLib} (hlib : Obliging lib) (os : Nat → Bool) (m : Meta)
    (ns : List Node) (ws : List Way) (rs : List Relation) (hd : (ns.map fun n => n.obj.id).Nodup)
    (hn : ∀ n ∈ ns, 0 ≤ n.obj.id ∧ n.obj.id ≤ 9007199254740992)
    (hw : ∀ w ∈ ws, |w.obj.id| ≤ 9007199254740992 ∧ ∀ wn ∈ w.nodes, 0 ≤ wn.ref ∧ wn.ref ≤ 9223372036854775807)
    (opts : List ToogrOpt) (ho : ∀ o ∈ opts, o ≠ .help ∧ o ≠ .bad) (args : List (List Char)) (ha : args.length ≤ 2)
    (read : FileInfo → List Cb × ParseEnd)
    (hread : read (FileInfo.ofName (ogrInput args)) = (protocol m (fileOf ns ws rs), .returned)) :
    ∃ ws' feats, List.Forall₂ (LocatedBy ns Position.undef) ws ws' ∧
      toogrProgram lib toshapePos (toshapeNeg os) read opts args = .ok ⟨some 0, [],
        [.driver (ogrFormat opts), .source (ogrOutput args) ["SPATIALITE=TRUE"],
         .layer "postboxes" .point, .field "postboxes" "id" .real 10, .field "postboxes" "operator" .string 30,
         .layer "roads" .line, .field "roads" "id" .real 10, .field "roads" "type" .string 30] ++ feats ++ [.close]⟩ ∧
      (∀ r ∈ feats, ∃ f, r = .feature "postboxes" f ∨ r = .feature "roads" f) ∧
      List.Forall₂ OgrPostBox (ns.filter fun n => IsPostBox n) (inLayer "postboxes" feats) ∧
      List.Forall₂ OgrRoad (ws'.filter fun w => IsRoad w) (inLayer "roads" feats) := by
  obtain ⟨ws', boxes, roads, g1, g2, g3, g4⟩ :=
    toogr_stores_partial os m ns ws rs hd hn hw (fun _ => true) (fun _ => rfl)
  unfold toogrMain at g2
  obtain ⟨feats, f1, f2, f3⟩ := toogr_calls_all hlib toshapePos (toshapeNeg os) _ _ _ _
    (toogrSetup (ogrFormat opts) (ogrOutput args)) g2
  simp only [List.nil_append, Prod.mk.injEq] at f2
  obtain ⟨rfl, rfl⟩ := f2
  refine ⟨ws', feats, g1, ?_, f3, g3, g4⟩
  unfold toogrProgram
  rw [toogrOptions_eq opts ho]
  simp only [toogrNames_eq args ha, hread]
  unfold ogrRun
  simp only [ogrAsk_all hlib, if_true, List.nil_append]
  show (ogrCalls lib _ _ (toogrSetup (ogrFormat opts) (ogrOutput args)) _).map _ = _
  rw [f1]
  rfl

theorem pg_calls_all {lib : OgrLib} (h : Obliging lib) (calls : List Cb) :
    ∀ (asked : List OgrReq) (ops : List PgOp), pgRun (fun _ => true) calls = .ok ops → PgOp.start ∉ ops →
      ogrCalls lib pgCall () asked calls = .ok (asked ++ ops.map (fun
        | .start => .start "nodes" | .create f => .feature "nodes" f | .commit => .commit "nodes"), true) := by
  induction calls with
  | nil =>
    intro asked ops e _
    cases e
    simp [ogrCalls]
  | cons c calls ih =>
    intro asked ops e hs
    rw [pgRun] at e
    cases h1 : pgStep (fun _ => true) c with
    | error x => rw [h1] at e; cases e
    | ok a =>
      rw [h1] at e
      simp only at e
      cases h2 : pgRun (fun _ => true) calls with
      | error x => rw [h2] at e; cases e
      | ok b =>
        rw [h2] at e
        cases e
        have hc : pgCall () c = .ok ((), a.map (fun
            | .start => .start "nodes" | .create f => .feature "nodes" f | .commit => .commit "nodes")) := by
          unfold pgCall
          unfold pgStep at h1
          split at h1
          · rename_i n
            cases hn : pgNode n <;> rw [hn] at h1 <;> simp at h1 <;> subst h1 <;> simp [hn]
          · cases h1; rfl
          · cases h1
            split <;> simp_all
        rw [ogrCalls, hc]
        simp only [Except.bind, ogrAsk_all h, if_true]
        rw [ih _ b h2 (fun hm => hs (List.mem_append_right _ hm))]
        simp

theorem pgOptions_eq (opts : List PgOpt) (h : ∀ o ∈ opts, o ≠ .help ∧ o ≠ .bad) (d : Bool) :
    pgOptions d opts = .ok (d || decide (PgOpt.debug ∈ opts)) := by
  induction opts generalizing d with
  | nil => simp [pgOptions]
  | cons o os ih =>
    have hos := fun o ho => h o (List.mem_cons_of_mem _ ho)
    cases o with
    | help => exact absurd rfl (h _ (by simp)).1
    | bad => exact absurd rfl (h _ (by simp)).2
    | debug => rw [pgOptions, ih hos]; simp

/-- **C122.**  osmium_to_postgis with two names, for a file in the usual order with nodes, and a library that does all it
is asked to: the program ends with 0; it opens the database with the second name, makes a table and a column for geometries,
and in one transaction the rows for exactly the nodes with tags of the file with the first name. -/
theorem to_postgis_program {lib : OgrLib} (hlib : Obliging lib) (m : Meta)
    (ns : List Node) (ws : List Way) (rs : List Relation) (hne : ns ≠ [])
    (opts : List PgOpt) (ho : ∀ o ∈ opts, o ≠ .help ∧ o ≠ .bad) (file name : List Char)
    (read : FileInfo → List Cb × ParseEnd)
    (hread : read (FileInfo.ofName file) = (protocol m (fileOf ns ws rs), .returned)) :
    ∃ rows, pgProgram lib read opts [file, name] = .ok ⟨some 0,
        if PgOpt.debug ∈ opts then
          "Reading file '".toList ++ file ++ "'\nOpening database 'PG:dbname=".toList ++ name ++ "'\n".toList else [],
        [.driver "PostgreSQL".toList, .source ("PG:dbname=".toList ++ name) [],
         .sql "CREATE TABLE nodes (id VARCHAR, tags hstore);",
         .sql "SELECT AddGeometryColumn('nodes', 'geom', 4326, 'POINT', 2);", .openLayer "nodes", .start "nodes"] ++
         rows.map (.feature "nodes") ++ [.commit "nodes", .close]⟩ ∧
      List.Forall₂ PgRow (ns.filter fun n => keptTags n ≠ []) rows := by
  obtain ⟨ops, h1, h2⟩ := to_postgis_rows (fun _ => true) m (fileOf ns ws rs) (fun _ _ _ _ => rfl)
  obtain ⟨fs, h3⟩ := to_postgis_transaction (fun _ => true) m ns ws rs hne ops h1
  have hrun : pgRun (fun _ => true) (protocol m (fileOf ns ws rs)) = .ok (fs.map .create ++ [.commit]) := by
    unfold pgMain at h1
    cases hr : pgRun (fun _ => true) (protocol m (fileOf ns ws rs)) with
    | error x => rw [hr] at h1; cases h1
    | ok o =>
      rw [hr] at h1
      simp only [Except.ok.injEq] at h1
      rw [h3] at h1
      simp only [List.cons_append, List.cons.injEq, true_and] at h1
      rw [h1]
  have hrows : madeRows ops = fs := by
    rw [h3]
    unfold madeRows
    simp [List.filterMap_append, List.filterMap_map]
  have hnodes : fileNodes (fileOf ns ws rs) = ns := by
    unfold fileNodes fileOf
    simp [List.filterMap_append, List.filterMap_map]
  rw [hrows, hnodes] at h2
  refine ⟨fs, ?_, h2⟩
  have hc := pg_calls_all hlib _ (pgSetup ("PG:dbname=".toList ++ name)) _ hrun (by simp)
  unfold pgProgram
  rw [pgOptions_eq opts ho]
  simp only [hread]
  unfold ogrRun
  simp only [ogrAsk_all hlib, if_true, List.nil_append, hc]
  simp only [Except.map, if_true, Except.ok.injEq, OgrEnd.mk.injEq, true_and, Bool.false_or, decide_eq_true_eq]
  constructor
  · split <;> simp
  · simp [pgSetup, Function.comp_def]

theorem toogr2_calls_all {lib : OgrLib} (h : Obliging lib) (calls : List WholeCall) :
    ∀ (asked : List OgrReq) (fs : List OgrArea), toogr2Calls (fun _ => true) calls = .ok fs →
      ogrCalls lib toogr2Call () asked calls = .ok (asked ++ fs.map (.area "areas"), true) := by
  induction calls with
  | nil =>
    intro asked fs e
    cases e
    simp [ogrCalls]
  | cons c calls ih =>
    intro asked fs e
    rw [ogrCalls]
    cases c with
    | call c =>
      rw [toogr2Calls] at e
      simp only [toogr2Call, Except.bind, ogrAsk_all h, if_true, List.append_nil]
      exact ih asked fs e
    | area a g =>
      rw [toogr2Calls] at e
      simp only [toogr2Call]
      cases ha : toogr2Area a g with
      | error x => rw [ha] at e; cases e
      | ok o =>
        rw [ha] at e
        cases o with
        | none =>
          simp only [Except.map, Except.bind, ogrAsk_all h, if_true, Option.toList, List.map_nil, List.append_nil]
          exact ih asked fs e
        | some f =>
          simp only [if_true] at e
          cases hr : toogr2Calls (fun _ => true) calls with
          | error x => rw [hr] at e; cases e
          | ok fs' =>
            rw [hr] at e
            cases e
            simp only [Except.map, Except.bind, ogrAsk_all h, if_true]
            rw [ih _ fs' hr]
            simp

/-- **C122.**  osmium_toogr2 with one name, for a file as in C93 (partial as C93) and a library that does all it is asked
to: unless GEOS throws an exception the program ends with 0; it makes a data source with one layer with one field, and in it
exactly the buildings of the file. -/
theorem toogr2_program_partial {lib : OgrLib} (hlib : Obliging lib) {S T : Type} {pos : IdStore S Position}
    {neg : IdStore T Position} {okp okn : List (Nat × Position) → Prop} {up un : Nat → Res Position} {unset : Position}
    (fp : Faithful pos okp up) (fn : Faithful neg okn un) (env : WholeEnv) (hsort : env.ringEnv.SortOk) (m : Meta)
    (ns : List Node) (ws : List Way) (rs : List Relation) (hd : DistinctObjects (fileOf ns ws rs))
    (hn : ∀ n ∈ ns, NegatableId n.obj.id) (hw : ∀ w ∈ ws, ∀ wn ∈ w.nodes, NegatableId wn.ref)
    (hokp : ∀ j, okp ((posOps (nodeCalls ns)).take j)) (hokn : ∀ j, okn ((negOps (nodeCalls ns)).take j))
    (hu : ∀ w ∈ ws, ∀ wn ∈ w.nodes, (∀ n ∈ ns, n.obj.id ≠ wn.ref) →
      (if 0 ≤ wn.ref then up wn.ref.toNat else un (-wn.ref).toNat) = .ok unset)
    (hnodes : ∀ w ∈ ws, w.nodes ≠ []) (hidw : ∀ w ∈ ws, |w.obj.id| < 2 ^ 30)
    (hidr : ∀ r ∈ rs, |r.obj.id| < 2 ^ 30 ∧ r.obj.id ≠ 0)
    (hv : ∀ w ∈ ws, ∀ t ∈ w.obj.tags, t.value ≠ "")
    (s : Asm) (h1 : Asm.AfterPass1 mpCfg (protocol m (fileOf ns ws rs)) s)
    (file : List Char) (read : FileInfo → List Cb × ParseEnd)
    (hread : read (FileInfo.ofName file) = (protocol m (fileOf ns ws rs), .returned)) :
    ∃ ws', List.Forall₂ (LocatedBy ns unset) ws ws' ∧
      ((toogr2Program lib env pos neg s read read [file] = .error geosError ∧
          ∃ r ∈ rs, IsMultipolygon r ∧ HasItsWays ws' r ∧ buildWhole env r (wayMembers ws' r) = .error geosError) ∨
       ∃ (fs : List OgrArea) (parts : List (List OgrArea)),
          toogr2Program lib env pos neg s read read [file] = .ok ⟨some 0, [],
            [.driver "SQLite".toList, .source "ogr_out.sqlite".toList ["SPATIALITE=TRUE"], .layer "areas" .multipolygon,
             .field "areas" "id" .integer 10] ++ fs.map (.area "areas") ++ [.close]⟩ ∧
          fs.Perm ((ws'.filter fun w => decide (¬ InMultipolygon rs w) && decide (IsClosedArea w) &&
            decide (IsBuilding w.obj)).map wayBuilding ++ parts.flatten) ∧
          List.Forall₂ (fun r part => List.Forall₂ (RelationBuilding ws' r)
              ((areasOfRelation env ws' r).filter fun a => decide (IsBuilding a.1.obj)) part)
            (rs.filter fun r => decide (IsMultipolygon r) && decide (HasItsWays ws' r)) parts) := by
  obtain ⟨ws', hl, hx⟩ := toogr2_partial (fun _ => true) (fun _ => rfl) fp fn env hsort m ns ws rs hd hn hw hokp hokn hu
    hnodes hidw hidr hv s h1
  refine ⟨ws', hl, ?_⟩
  have hprog : toogr2Program lib env pos neg s read read [file] =
      (secondPass env pos neg s (protocol m (fileOf ns ws rs))).bind fun cs =>
        ogrRun lib toogr2Setup toogr2Call () cs .returned := by
    unfold toogr2Program
    simp only [hread, ogrAsk_all hlib, ne_eq, not_true_eq_false, and_false, if_false, if_true]
  rw [hprog]
  unfold toogr2Main at hx
  have herr : ∀ calls, toogr2Calls (fun _ => true) calls = .error geosError →
      ∀ asked, ogrCalls lib toogr2Call () asked calls = .error geosError := by
    intro calls
    induction calls with
    | nil => intro h; cases h
    | cons c calls ih =>
      intro e asked
      rw [ogrCalls]
      cases c with
      | call c =>
        rw [toogr2Calls] at e
        simp only [toogr2Call, Except.bind, ogrAsk_all hlib, if_true, List.append_nil]
        exact ih e asked
      | area a g =>
        rw [toogr2Calls] at e
        simp only [toogr2Call]
        cases ha : toogr2Area a g with
        | error x => rw [ha] at e; cases e; rfl
        | ok o =>
          rw [ha] at e
          cases o with
          | none =>
            simp only [Except.map, Except.bind, ogrAsk_all hlib, if_true, Option.toList, List.map_nil, List.append_nil]
            exact ih e asked
          | some f =>
            simp only [if_true] at e
            cases hr : toogr2Calls (fun _ => true) calls with
            | ok fs' => rw [hr] at e; cases e
            | error x =>
              rw [hr] at e
              cases e
              simp only [Except.map, Except.bind, ogrAsk_all hlib, if_true]
              exact ih hr _
  rcases hx with ⟨he, hr⟩ | ⟨fs, parts, he, hp, hf⟩
  · refine .inl ⟨?_, hr⟩
    cases hs : secondPass env pos neg s (protocol m (fileOf ns ws rs)) with
    | error x => rw [hs] at he; cases he; rfl
    | ok cs =>
      rw [hs] at he
      simp only [Except.bind]
      unfold ogrRun
      simp only [ogrAsk_all hlib, if_true, herr cs he]
      rfl
  · refine .inr ⟨fs, parts, ?_, hp, hf⟩
    cases hs : secondPass env pos neg s (protocol m (fileOf ns ws rs)) with
    | error x => rw [hs] at he; cases he
    | ok cs =>
      rw [hs] at he
      simp only [Except.bind]
      unfold ogrRun
      simp only [ogrAsk_all hlib, if_true, toogr2_calls_all hlib cs _ fs he]
      rfl

/-! ### Usage -/

theorem toogrOptions_help (pre post : List ToogrOpt) (h : ∀ o ∈ pre, o ≠ .help ∧ o ≠ .bad) (d : List Char) :
    toogrOptions d (pre ++ .help :: post) = .error 0 ∧ toogrOptions d (pre ++ .bad :: post) = .error 1 := by
  induction pre generalizing d with
  | nil => exact ⟨rfl, rfl⟩
  | cons o os ih =>
    have hos := fun o ho => h o (List.mem_cons_of_mem _ ho)
    cases o with
    | help => exact absurd rfl (h _ (by simp)).1
    | bad => exact absurd rfl (h _ (by simp)).2
    | format f => exact ih hos f

theorem pgOptions_help (pre post : List PgOpt) (h : ∀ o ∈ pre, o ≠ .help ∧ o ≠ .bad) (d : Bool) :
    pgOptions d (pre ++ .help :: post) = .error 0 ∧ pgOptions d (pre ++ .bad :: post) = .error 1 := by
  induction pre generalizing d with
  | nil => exact ⟨rfl, rfl⟩
  | cons o os ih =>
    have hos := fun o ho => h o (List.mem_cons_of_mem _ ho)
    cases o with
    | help => exact absurd rfl (h _ (by simp)).1
    | bad => exact absurd rfl (h _ (by simp)).2
    | debug => exact ih hos true

/-- **C122.**  With `--help`, options that do not exist or a wrong number of names the programs ask nothing of the library
and end with 0 (for help, with the help text) or 1. -/
theorem ogr_usage {S T : Type} (lib : OgrLib) (env : WholeEnv) (pos : IdStore S Position) (neg : IdStore T Position)
    (s : Asm) (read read' : FileInfo → List Cb × ParseEnd) (args : List (List Char)) :
    (∀ pre post, (∀ o ∈ pre, o ≠ ToogrOpt.help ∧ o ≠ .bad) →
      toogrProgram lib pos neg read (pre ++ .help :: post) args = .ok ⟨some 0, toogrHelp, []⟩ ∧
      toogrProgram lib pos neg read (pre ++ .bad :: post) args = .ok ⟨some 1, [], []⟩) ∧
    (∀ opts, (∀ o ∈ opts, o ≠ ToogrOpt.help ∧ o ≠ .bad) → 2 < args.length →
      toogrProgram lib pos neg read opts args = .ok ⟨some 1, [], []⟩) ∧
    (∀ pre post, (∀ o ∈ pre, o ≠ PgOpt.help ∧ o ≠ .bad) →
      pgProgram lib read (pre ++ .help :: post) args = .ok ⟨some 0, pgHelp, []⟩ ∧
      pgProgram lib read (pre ++ .bad :: post) args = .ok ⟨some 1, [], []⟩) ∧
    (∀ opts, (∀ o ∈ opts, o ≠ PgOpt.help ∧ o ≠ .bad) → args.length ≠ 2 →
      pgProgram lib read opts args = .ok ⟨some 1, [], []⟩) ∧
    (args.length ≠ 1 → toogr2Program lib env pos neg s read read' args = .ok ⟨some 1, [], []⟩) := by
  refine ⟨fun pre post h => ?_, fun opts h hl => ?_, fun pre post h => ?_, fun opts h hl => ?_, fun hl => ?_⟩
  · obtain ⟨a, b⟩ := toogrOptions_help pre post h "SQLite".toList
    unfold toogrProgram
    rw [a, b]
    exact ⟨rfl, rfl⟩
  · unfold toogrProgram
    rw [toogrOptions_eq opts h]
    match args, hl with
    | _ :: _ :: _ :: _, _ => rfl
  · obtain ⟨a, b⟩ := pgOptions_help pre post h false
    unfold pgProgram
    rw [a, b]
    exact ⟨rfl, rfl⟩
  · unfold pgProgram
    rw [pgOptions_eq opts h]
    match args, hl with
    | [], _ => rfl
    | [_], _ => rfl
    | [_, _], h => exact absurd rfl h
    | _ :: _ :: _ :: _, _ => rfl
  · unfold toogr2Program
    match args, hl with
    | [], _ => rfl
    | [_], h => exact absurd rfl h
    | _ :: _ :: _, _ => rfl

/-! ### Disagreements -/

/-- **C122 fails** for osmium_to_postgis: if the library refuses to commit the transaction, so that nothing is in the
database, the program ends with 0 all the same. -/
theorem to_postgis_commit_ignored {lib : OgrLib} (hlib : Obliging lib) (m : Meta)
    (ns : List Node) (ws : List Way) (rs : List Relation) (hne : ns ≠ [])
    (file name : List Char) (read : FileInfo → List Cb × ParseEnd)
    (hread : read (FileInfo.ofName file) = (protocol m (fileOf ns ws rs), .returned)) :
    let refuses : OgrLib := fun asked r => if r = .commit "nodes" then false else lib asked r
    pgProgram refuses read [] [file, name] = pgProgram lib read [] [file, name] ∧
    (pgProgram refuses read [] [file, name]).toOption.map (fun e => e.status) = some (some 0) := by
  intro refuses
  have hask : ∀ rs asked, ogrAsk refuses asked rs = ogrAsk lib asked rs := by
    intro rs
    induction rs with
    | nil => exact fun _ => rfl
    | cons r rs ih =>
      intro asked
      rw [ogrAsk, ogrAsk, ih]
      by_cases hr : r = .commit "nodes"
      · subst hr; rfl
      · have : refuses asked r = lib asked r := if_neg hr
        rw [this]
  have hcalls : ∀ calls s asked, ogrCalls refuses pgCall s asked calls = ogrCalls lib pgCall s asked calls := by
    intro calls
    induction calls with
    | nil => exact fun _ _ => rfl
    | cons c cs ih =>
      intro s asked
      rw [ogrCalls, ogrCalls]
      simp only [hask, ih]
  have e : pgProgram refuses read [] [file, name] = pgProgram lib read [] [file, name] := by
    unfold pgProgram ogrRun
    simp only [hask, hcalls]
  refine ⟨e, ?_⟩
  obtain ⟨rows, h, -⟩ := to_postgis_program hlib m ns ws rs hne [] (by simp) file name read hread
  rw [e, h]
  rfl

/-- **C122.**  What the library answers to the SQL commands and to the start and the end of the transaction makes no difference to
osmium_to_postgis: with libraries that differ only in this the program asks for the same and ends in the same way, for all command
lines and files. -/
theorem to_postgis_refusals_ignored (lib lib2 : OgrLib) (h : ∀ asked r, MustHeed r → lib asked r = lib2 asked r)
    (read : FileInfo → List Cb × ParseEnd) (opts : List PgOpt) (args : List (List Char)) :
    pgProgram lib read opts args = pgProgram lib2 read opts args := by
  have hask : ∀ rs asked, ogrAsk lib asked rs = ogrAsk lib2 asked rs := by
    intro rs
    induction rs with
    | nil => exact fun _ => rfl
    | cons r rs ih =>
      intro asked
      rw [ogrAsk, ogrAsk, ih]
      by_cases hr : MustHeed r
      · rw [h asked r hr]
      · have : r.checked = false := by cases r <;> first | rfl | exact absurd trivial hr
        rw [this]; rfl
  have hcalls : ∀ calls s asked, ogrCalls lib pgCall s asked calls = ogrCalls lib2 pgCall s asked calls := by
    intro calls
    induction calls with
    | nil => exact fun _ _ => rfl
    | cons c cs ih =>
      intro s asked
      rw [ogrCalls, ogrCalls]
      simp only [hask, ih]
  unfold pgProgram ogrRun
  simp only [hask, hcalls]

/-- Two such libraries: one refuses all SQL commands and transactions.  The rows are asked for all the same. -/
example :
    let refuses : OgrLib := fun _ r => match r with | .sql _ => false | .start _ => false | .commit _ => false | _ => true
    (∀ asked r, MustHeed r → refuses asked r = true) ∧
    (pgProgram refuses (fun _ => (protocol (Meta.new false) (fileOf pgNodes [] []), .returned)) []
      ["a.osm".toList, "gis".toList]).toOption.map (fun e => (e.status, (inLayer "nodes" e.asked).length)) = some (some 0, 1) := by
  refine ⟨?_, by decide +kernel⟩
  intro asked r h
  cases r <;> first | rfl | exact h.elim

/-- **C122 fails** if the file cannot be read: osmium_toogr has made its (empty) data source before, which is not closed. -/
theorem toogr_unreadable {S T : Type} {lib : OgrLib} (hlib : Obliging lib) (pos : IdStore S Position)
    (neg : IdStore T Position) (read : FileInfo → List Cb × ParseEnd) (i o : List Char) (e : ParseEnd)
    (he : e ≠ .returned) (hread : read (FileInfo.ofName i) = ([], e)) :
    toogrProgram lib pos neg read [] [i, o] = .ok ⟨none, [], toogrSetup "SQLite".toList o⟩ := by
  unfold toogrProgram ogrRun
  simp only [toogrOptions, toogrNames, hread, ogrAsk_all hlib, if_true, List.nil_append, ogrCalls, Except.map, he, if_false]

/-! ### Examples -/

/-- A library that cannot make the layer of roads: the program ends with 1 after this request. -/
example : (toogrProgram (fun _ r => decide (r ≠ .layer "roads" .line)) toshapePos (toshapeNeg fun _ => true)
    (fun _ => (protocol (Meta.new false) (fileOf toogrNodes toogrWays []), .returned)) [] []).toOption =
    some ⟨some 1, [], [.driver "SQLite".toList, .source "ogr_out".toList ["SPATIALITE=TRUE"],
      .layer "postboxes" .point, .field "postboxes" "id" .real 10, .field "postboxes" "operator" .string 30,
      .layer "roads" .line]⟩ := by decide +kernel

/-- A library that takes one row only. -/
example : (pgProgram (fun asked r => match r with | .feature _ _ => decide (inLayer "nodes" asked = []) | _ => true)
    (fun _ => (protocol (Meta.new false) (fileOf (pgNodes ++ pgNodes) [] []), .returned)) [.debug]
      ["a.osm".toList, "gis".toList]).toOption.map (fun e => (e.status, e.out, (inLayer "nodes" e.asked).length)) =
    some (some 1, "Reading file 'a.osm'\nOpening database 'PG:dbname=gis'\n".toList, 2) := by decide +kernel

/-- The hypotheses of `toogr_program_partial`. -/
example : Obliging (fun _ _ => true) ∧ (toogrNodes.map fun n => n.obj.id).Nodup ∧
    (∀ n ∈ toogrNodes, 0 ≤ n.obj.id ∧ n.obj.id ≤ 9007199254740992) ∧
    (∀ o ∈ [ToogrOpt.format "KML".toList], o ≠ .help ∧ o ≠ .bad) ∧ ogrFormat [.format "KML".toList] = "KML".toList := by
  exact ⟨fun _ _ => rfl, by decide, by decide, by decide, by decide⟩

end Osmium
