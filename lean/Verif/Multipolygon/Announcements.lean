import Verif.Multipolygon.Messages

/-
C124: the messages of the multipolygon assembler with a debug level of 2 or more: what they announce, and when.
-/
namespace Osmium
open Spec

namespace Spec

/-- The line about a closed way. (specification, no counterpart in /repo) -/
def wayAnnounced (w : Way) : Line := txt "MultiPolygon from way " ++ Text.intDec w.obj.id

/-- The line about a relation. (specification, no counterpart in /repo) -/
def relationAnnounced (r : Relation) : Line := txt "MultiPolygon from relation " ++ Text.intDec r.obj.id

end Spec

/-- What is printed is only about the events, and comes in their order, with one line more at the end of the ways. -/
theorem noisy_file_lines (level : Nat) (hlev : 1 ≤ level) (m m1 : Meta) (ns : List Node) (ws ws1 : List Way)
    (rs : List Relation)
    (hd : DistinctObjects (fileOf ns ws rs)) (hws : ws ≠ []) (s : Asm)
    (h1 : Asm.AfterPass1 mpCfg (protocol m1 (fileOf ns ws1 rs)) s) :
    ∃ (s' t' : Asm) (ev : List AsmEvent) (out : List Noisy), s.pass2 mpCfg (protocol m (fileOf ns ws rs)) = .ok (s', ev) ∧
      noisyPass2 level s (protocol m (fileOf ns ws rs)) = .ok (t', out) ∧
      linesOf out = ev.flatMap (hookLines level) ++
        warningLines (rs.filter fun r => decide (IsMultipolygon r ∧ LacksWay ws r)) := by
  obtain ⟨s1, t1, ev1, b, q1, q2⟩ := noisy_file m m1 ns ws ws1 rs hd hws s h1
  obtain ⟨b', hcalls, hb, ha⟩ := usual_file_calls m ns ws rs hws
  generalize hA : (Cb.init m :: runCalls (ns.map OsmObj.node) ++ Cb.before .way :: ws.map fun v => Cb.obj (.way v)) = a
    at hcalls ha
  rw [hcalls] at q1 q2 ⊢
  have hw : s.want = 1 := by rw [pass1_want h1]; rfl
  have hn := afterPass1_null h1
  -- the warning does not depend on the level
  rcases noisy_before 1 a s ha hn with ⟨f, e1, e2⟩ | ⟨sa, eva, ms, e1, e2, e3, e4, e5, e6⟩
  · rw [pass2_app, e1] at q1; cases q1
  obtain ⟨s2, t2, ks, g1, g2, g3, g4, g5, g6, g7, g8, g9⟩ := noisy_after 1 sa (by rw [e5, hw]) e6
  obtain ⟨s3, ev3, t3, ls, k1, k2, k3, k4, -, -⟩ := noisy_done 1 b' s2 t2 g5 g6 g7 g8
  have hflat : ∀ l : List AsmEvent, l.flatMap (hookLines 1) = [] := by
    intro l
    rw [List.flatMap_eq_nil_iff]
    exact fun e _ => hookLines_one e
  have hwarn : warningLines (sa.clean.rels.filterMap (·.relation)) =
      warningLines (rs.filter fun r => decide (IsMultipolygon r ∧ LacksWay ws r)) := by
    have hq : noisyPass2 1 s (a ++ Cb.after .way :: b') = .ok (t3, ms ++ (ks ++ ls)) := by
      rw [noisyPass2_append, e2]
      simp only [bind, Except.bind, noisyPass2, g1, g2, k2]
      rfl
    rw [hq] at q2
    simp only [Except.ok.injEq, Prod.mk.injEq] at q2
    have := congrArg linesOf q2.2
    rw [linesOf_append, linesOf_append, e4, k4, hflat, hflat, g4, if_pos (Nat.le_refl 1), linesOf_append, linesOf_append,
      linesOf_lines] at this
    have hev : ∀ l : List AsmEvent, linesOf (l.map .event) = [] := by
      intro l
      unfold linesOf
      rw [List.filterMap_map]
      simp
    rw [hev, hev] at this
    simpa using this
  -- with the level
  rcases noisy_before level a s ha hn with ⟨f, e1', e2'⟩ | ⟨sa', eva', ms', e1', e2', e3', e4', e5', e6'⟩
  · rw [e1] at e1'; cases e1'
  rw [e1] at e1'
  cases e1'
  obtain ⟨s2', t2', ks', g1', g2', g3', g4', g5', g6', g7', g8', g9'⟩ := noisy_after level sa (by rw [e5, hw]) e6
  rw [g1] at g1'
  cases g1'
  obtain ⟨s3', ev3', t3', ls', k1', k2', k3', k4', -, -⟩ := noisy_done level b' s2 t2' g5' g6' g7' g8'
  have hrest := pass2_rest b' s2 hb
  rw [hrest] at k1'
  cases k1'
  refine ⟨s2, t3', eva ++ ([.allAvailable, .next (.after .way)] ++ b'.map .next), ms' ++ (ks' ++ ls'), ?_, ?_, ?_⟩
  · rw [pass2_app, e1]
    simp only [bind, Except.bind, Asm.pass2, g1, hrest]
    rfl
  · rw [noisyPass2_append, e2']
    simp only [bind, Except.bind, noisyPass2, g1, g2', k2']
    rfl
  · have hnext : (b'.map AsmEvent.next).flatMap (hookLines level) = [] := by
      rw [List.flatMap_eq_nil_iff]
      intro e he
      obtain ⟨c, -, rfl⟩ := List.mem_map.1 he
      rfl
    rw [linesOf_append, linesOf_append, e4', k4', g4', if_pos hlev, hwarn, hnext, List.flatMap_append, List.flatMap_append,
      hnext]
    simp [hookLines]

/-- **C124**, for a file in the usual order in which no object occurs twice and which has a way (partial: as
`warning_partial`): at level 2 and above the messages of the second pass are, in some order, one line for each closed way
that is in no multipolygon relation, and one for each multipolygon relation all of whose ways are in the file and which has
one; then comes the warning of level 1. -/
theorem announcements_partial (level : Nat) (hlev : 2 ≤ level) (m : Meta) (ns : List Node) (ws : List Way)
    (rs : List Relation) (hd : DistinctObjects (fileOf ns ws rs)) (hws : ws ≠ []) (s : Asm)
    (h1 : Asm.AfterPass1 mpCfg (protocol m (fileOf ns ws rs)) s) :
    ∃ s' out ls, noisyPass2 level s (protocol m (fileOf ns ws rs)) = .ok (s', out) ∧
      linesOf out = ls ++ warningLines (rs.filter fun r => decide (IsMultipolygon r ∧ LacksWay ws r)) ∧
      ls.Perm ((ws.filter fun w => decide (¬ InMultipolygon rs w) && decide (IsClosedArea w)).map wayAnnounced ++
        (rs.filter fun r => decide (IsMultipolygon r) && decide (HasItsWays ws r)).map relationAnnounced) := by
  obtain ⟨s', t', ev, out, q1, q2, q3⟩ := noisy_file_lines level (by omega) m m ns ws ws rs hd hws s h1
  refine ⟨t', out, _, q2, q3, ?_⟩
  obtain ⟨s2, ev2, k1, k2, k3, -, -⟩ := assembler_file_partial mpCfg m (ns.map OsmObj.node) (ws.map OsmObj.way) rs
    fileOf_nodes fileOf_ways hd s h1
  change s.pass2 mpCfg (protocol m (fileOf ns ws rs)) = _ at k1
  rw [q1] at k1
  cases k1
  have hread := read_file ns ws rs
  unfold fileOf at hread
  rw [hread] at k2 k3
  refine (hooks_perm (hookLines level) rfl (fun _ => rfl) ev).trans (List.Perm.append (List.Perm.of_eq ?_) ?_)
  · rw [k3, List.filter_map, List.flatMap_map]
    have hf : ws.filter ((fun o => decide (¬ Referenced mpCfg (rs.filter mpCfg.accept) o)) ∘ OsmObj.way) =
        ws.filter fun w => decide (¬ InMultipolygon rs w) := by
      apply List.filter_congr
      intro w _
      simp only [Function.comp, mp_referenced_iff]
    rw [hf]
    apply flatMap_filter_if
    intro w _
    simp only [hookLines, hlev, decide_true, Bool.and_true, wayAnnounced]
  · refine (k2.flatMap_right _).trans (List.Perm.of_eq ?_)
    rw [List.flatMap_map, accepted_eq, List.filter_filter]
    have hf : (rs.filter fun r => decide (Completable mpCfg (ws.map OsmObj.way) r) && decide (IsMultipolygon r)) =
        rs.filter fun r => decide (IsMultipolygon r) && decide (HasItsWays ws r) := by
      apply List.filter_congr
      intro r _
      rw [Bool.and_comm]
      congr 1
      exact decide_eq_decide.2 (completable_ways ws r)
    rw [hf]
    simp only [hookLines, if_pos hlev]
    induction (rs.filter fun r => decide (IsMultipolygon r) && decide (HasItsWays ws r)) with
    | nil => rfl
    | cons r l ih => rw [List.flatMap_cons, ih]; rfl

/-! ### When things are announced -/

/-- Each event comes with its lines before it. (helper for proofs, no counterpart in /repo) -/
def Blocks (level : Nat) (out : List Noisy) : Prop :=
  ∃ bs : List (List Line × AsmEvent), out = bs.flatMap (fun b => b.1.map .line ++ [.event b.2]) ∧
    ∀ b ∈ bs, b.2 ≠ .allAvailable → b.1 = hookLines level b.2

theorem blocks_nil (level : Nat) : Blocks level [] := ⟨[], rfl, by simp⟩

theorem blocks_append {level : Nat} {a b : List Noisy} (ha : Blocks level a) (hb : Blocks level b) :
    Blocks level (a ++ b) := by
  obtain ⟨x, rfl, hx⟩ := ha
  obtain ⟨y, rfl, hy⟩ := hb
  exact ⟨x ++ y, by rw [List.flatMap_append], fun b hb => (List.mem_append.1 hb).elim (hx b) (hy b)⟩

theorem blocks_hooks (level : Nat) : ∀ (es : List AsmEvent) (s s' : Asm) (out : List Noisy),
    noisyHooks level s es = .ok (s', out) → Blocks level out := by
  intro es
  induction es with
  | nil => intro s s' out h; cases h; exact blocks_nil level
  | cons e es ih =>
    intro s s' out h
    have other : ∀ q : Res (Asm × List Noisy), q = noisyHooks level s es → e ≠ .allAvailable →
        (do let q ← q; return (q.1, (hookLines level e).map Noisy.line ++ Noisy.event e :: q.2)) = Except.ok (ε := Fail) (s', out) →
        Blocks level out := by
      intro q hq he h
      cases hc : noisyHooks level s es with
      | error f => rw [hq, hc] at h; cases h
      | ok p =>
        rw [hq, hc] at h
        cases h
        have := blocks_append ⟨[(hookLines level e, e)], rfl, by simp⟩ (ih s p.1 p.2 (by rw [hc]))
        simpa using this
    cases e with
    | allAvailable =>
      simp only [noisyHooks] at h
      cases ha : allAvailable level s with
      | error f => rw [ha] at h; cases h
      | ok p =>
        rw [ha] at h
        simp only [bind, Except.bind] at h
        cases hc : noisyHooks level p.1 es with
        | error f => rw [hc] at h; cases h
        | ok q =>
          rw [hc] at h
          cases h
          have := blocks_append ⟨[(p.2, AsmEvent.allAvailable)], rfl, by simp⟩ (ih p.1 q.1 q.2 (by rw [hc]))
          simpa using this
    | notInAny o => exact other _ rfl (by simp) h
    | complete r ms => exact other _ rfl (by simp) h
    | next c => exact other _ rfl (by simp) h

theorem blocks_pass2 (level : Nat) : ∀ (cs : List Cb) (s s' : Asm) (out : List Noisy),
    noisyPass2 level s cs = .ok (s', out) → Blocks level out := by
  intro cs
  induction cs with
  | nil => intro s s' out h; cases h; exact blocks_nil level
  | cons c cs ih =>
    intro s s' out h
    rw [noisyPass2] at h
    cases hs : s.step mpCfg c with
    | error f => rw [hs] at h; cases h
    | ok p =>
      rw [hs] at h
      simp only [bind, Except.bind] at h
      cases hq : noisyHooks level p.1 p.2 with
      | error f => rw [hq] at h; cases h
      | ok q =>
        rw [hq] at h
        simp only at h
        cases hr : noisyPass2 level q.1 cs with
        | error f => rw [hr] at h; cases h
        | ok r =>
          rw [hr] at h
          cases h
          exact blocks_append (blocks_hooks level _ _ _ _ hq) (ih _ _ _ hr)

theorem block_before {level : Nat} {out : List Noisy} (h : Blocks level out) (e : AsmEvent) (he : e ≠ .allAvailable) :
    ∀ a b, out = a ++ .event e :: b → ∃ a', a = a' ++ (hookLines level e).map .line := by
  obtain ⟨bs, rfl, hb⟩ := h
  induction bs with
  | nil => intro a b h; simp at h
  | cons x bs ih =>
    intro a b h
    rw [List.flatMap_cons, List.append_assoc, List.append_eq_append_iff] at h
    rcases h with ⟨c, h1, h2⟩ | ⟨c, h1, h2⟩
    · cases c with
      | nil =>
        simp only [List.nil_append, List.singleton_append, List.cons.injEq, Noisy.event.injEq] at h2
        obtain ⟨rfl, -⟩ := h2
        refine ⟨[], ?_⟩
        rw [h1, hb x (by simp) he]
        simp
      | cons n c =>
        simp only [List.cons_append, List.cons.injEq] at h2
        obtain ⟨a', rfl⟩ := ih (fun y hy => hb y (by simp [hy])) c b h2.2
        refine ⟨x.1.map .line ++ n :: a', ?_⟩
        rw [h1]
        simp
    · -- an event is not a line
      cases c with
      | nil =>
        simp only [List.nil_append, List.singleton_append, List.cons.injEq, Noisy.event.injEq] at h2
        obtain ⟨rfl, -⟩ := h2
        refine ⟨[], ?_⟩
        have h1 : x.1.map Noisy.line = a := by simpa using h1
        rw [← h1, hb x (by simp) he]
        simp
      | cons n c =>
        have h3 : Noisy.event e = n := by simpa using (List.cons.inj h2).1
        have : n ∈ x.1.map Noisy.line := by rw [h1]; simp
        obtain ⟨l, -, hl⟩ := List.mem_map.1 this
        rw [← h3] at hl
        cases hl

/-- **C124** for all calls and states: at level 2 and above, right before a relation is assembled (or an area is made of a
closed way) a line with its number is printed. -/
theorem announced_first (level : Nat) (s s' : Asm) (calls : List Cb) (a b : List Noisy) :
    (∀ r ms, noisyPass2 level s calls = .ok (s', a ++ .event (.complete r ms) :: b) →
      2 ≤ level → ∃ a', a = a' ++ [.line (relationAnnounced r)]) ∧
    (∀ w, noisyPass2 level s calls = .ok (s', a ++ .event (.notInAny (.way w)) :: b) →
      2 ≤ level → IsClosedArea w → ∃ a', a = a' ++ [.line (wayAnnounced w)]) := by
  constructor
  · intro r ms h hl
    obtain ⟨a', e⟩ := block_before (blocks_pass2 level _ _ _ _ h) (.complete r ms) (by simp) a b rfl
    refine ⟨a', ?_⟩
    rw [e]
    simp only [hookLines, if_pos hl]
    rfl
  · intro w h hl hc
    obtain ⟨a', e⟩ := block_before (blocks_pass2 level _ _ _ _ h) (.notInAny (.way w)) (by simp) a b rfl
    refine ⟨a', ?_⟩
    rw [e]
    simp only [hookLines, hc, hl, decide_true, Bool.and_true, if_true]
    rfl

/-! ### An example: the file of the squares (Multipolygon/Pipeline) -/

/-- The hypotheses hold; what is announced is this. -/
example : ∃ s' out ls, noisyPass2 2 pipeAsm pipeCalls = .ok (s', out) ∧
    linesOf out = ls ++ [txt "Warning! Some member ways missing for these multipolygon relations: 10"] ∧
    ls.Perm [txt "MultiPolygon from way 6", txt "MultiPolygon from relation 9"] := by
  obtain ⟨s', out, ls, h1, h2, h3⟩ := announcements_partial 2 (by decide) (Meta.new false) pipeNodes pipeWays pipeRelations
    pipe_distinct (by decide) pipeAsm pipe_pass1
  refine ⟨s', out, ls, h1, h2.trans ?_, h3.trans (List.Perm.of_eq ?_)⟩
  · congr 1
  · decide +kernel

end Osmium
