import Verif.Relations.Props
import Mathlib.Data.List.Perm.Subperm

/-
C104: `all_members_available` is called once, when no more members can come.
-/
namespace Osmium

namespace Spec

/-- The enabled types of which a block ends, in this order. (specification, no counterpart in /repo) -/
def typeEnds (cfg : AsmCfg) (calls : List Cb) : List ObjType :=
  calls.filterMap fun | .after t => if cfg.enabled t then some t else none | _ => none

/-- The types the assembler was told to look at. (specification, no counterpart in /repo) -/
def enabledTypes (cfg : AsmCfg) : List ObjType := [ObjType.node, .way, .relation].filter cfg.enabled

end Spec

open Spec

theorem typeEnds_cons (cfg : AsmCfg) (c : Cb) (cs : List Cb) :
    typeEnds cfg (c :: cs) =
      (match c with | .after t => if cfg.enabled t then [t] else [] | _ => []) ++ typeEnds cfg cs := by
  unfold typeEnds
  rw [List.filterMap_cons]
  cases c <;> simp only [List.nil_append]
  rename_i t
  cases h : cfg.enabled t <;> simp [h]

theorem want_count (cfg : AsmCfg) : (Asm.new cfg).want = ((enabledTypes cfg).length : Int) := by
  unfold Asm.new enabledTypes
  cases h1 : cfg.enabled .node <;> cases h2 : cfg.enabled .way <;> cases h3 : cfg.enabled .relation <;>
    simp [List.filter, h1, h2, h3]

theorem addAll_quiet {o : OsmObj} {rels rels' : List RelInfo} {is : List MemberInfo} {ev : List AsmEvent}
    (h : addAll o rels is = .ok (rels', ev)) : ∀ e ∈ ev, ∃ r ms, e = .complete r ms := by
  induction is generalizing rels rels' ev with
  | nil => cases h; simp
  | cons i is ih =>
    simp only [addAll, bind, Except.bind, pure, Except.pure] at h
    split at h
    · cases h
    · rename_i p hp
      split at h
      · cases h
      · rename_i q hq
        cases h
        intro e he
        rcases List.mem_append.1 he with he | he
        · unfold addOne at hp
          split at hp
          · split at hp
            · cases hp
            · split at hp
              · cases hp
              · split at hp
                · simp only [bind, Except.bind, pure, Except.pure] at hp
                  split at hp
                  · cases hp
                  · split at hp
                    · cases hp
                      simp only [List.mem_singleton] at he
                      exact ⟨_, _, he⟩
                    · cases hp; simp at he
                · cases hp
          · cases hp
        · exact ih hq e he

/-- One callback: the hooks come before the call of the nested handler, and `all_members_available` is called only at the
end of a block, if it is the last one to wait for. -/
theorem step_available {cfg : AsmCfg} {s s' : Asm} {c : Cb} {ev : List AsmEvent} (h : s.step cfg c = .ok (s', ev)) :
    ∃ es, ev = es ++ [.next c] ∧ nextCalls es = [] ∧
      s'.want = s.want - (typeEnds cfg [c]).length ∧
      (if typeEnds cfg [c] ≠ [] ∧ s.want = 1 then es = [.allAvailable] else .allAvailable ∉ es) := by
  have quiet : s' = s ∧ ev = [.next c] → typeEnds cfg [c] = [] → ∃ es, ev = es ++ [.next c] ∧ nextCalls es = [] ∧
      s'.want = s.want - (typeEnds cfg [c]).length ∧
      (if typeEnds cfg [c] ≠ [] ∧ s.want = 1 then es = [.allAvailable] else .allAvailable ∉ es) := by
    rintro ⟨rfl, rfl⟩ ht
    exact ⟨[], rfl, rfl, by simp [ht], by simp [ht]⟩
  cases c with
  | obj o =>
    have ht : typeEnds cfg [.obj o] = [] := rfl
    simp only [Asm.step] at h
    split at h
    · split at h
      · cases h
        exact ⟨[.notInAny o], rfl, rfl, by simp [ht], by simp [ht]⟩
      · simp only [bind, Except.bind, pure, Except.pure] at h
        split at h
        · cases h
        · rename_i p hp
          cases h
          have hq := addAll_quiet hp
          refine ⟨p.2, rfl, ?_, by simp [ht], ?_⟩
          · unfold nextCalls
            rw [List.filterMap_eq_nil_iff]
            intro e he
            obtain ⟨r, ms, rfl⟩ := hq e he
            rfl
          · rw [if_neg (by simp [ht])]
            intro he
            obtain ⟨r, ms, hr⟩ := hq _ he
            cases hr
    · cases h; exact quiet ⟨rfl, rfl⟩ ht
  | after t =>
    simp only [Asm.step] at h
    split at h
    · rename_i he
      cases h
      have ht : typeEnds cfg [.after t] = [t] := by simp [typeEnds, he]
      refine ⟨_, rfl, ?_, by simp [ht], ?_⟩
      · split <;> rfl
      · rw [ht]
        by_cases hw : s.want = 1
        · rw [if_pos ⟨by simp, hw⟩, if_pos (by omega)]
        · rw [if_neg (by simp [hw]), if_neg (by omega)]; simp
    · rename_i he
      cases h
      exact quiet ⟨rfl, rfl⟩ (by simp [typeEnds, he])
  | init m => cases h; exact quiet ⟨rfl, rfl⟩ rfl
  | before t => cases h; exact quiet ⟨rfl, rfl⟩ rfl
  | final => cases h; exact quiet ⟨rfl, rfl⟩ rfl

theorem pass2_cons {cfg : AsmCfg} {s s' : Asm} {c : Cb} {cs : List Cb} {ev : List AsmEvent}
    (h : s.pass2 cfg (c :: cs) = .ok (s', ev)) :
    ∃ s1 ev1 ev2, s.step cfg c = .ok (s1, ev1) ∧ s1.pass2 cfg cs = .ok (s', ev2) ∧ ev = ev1 ++ ev2 := by
  simp only [Asm.pass2, bind, Except.bind, pure, Except.pure] at h
  split at h
  · cases h
  · rename_i p hp
    split at h
    · cases h
    · rename_i q hq
      cases h
      exact ⟨p.1, p.2, q.2, hp, hq, rfl⟩

theorem nextCalls_append (a b : List AsmEvent) : nextCalls (a ++ b) = nextCalls a ++ nextCalls b := by
  simp [nextCalls]

theorem pass2_next {cfg : AsmCfg} {s s' : Asm} {cs : List Cb} {ev : List AsmEvent}
    (h : s.pass2 cfg cs = .ok (s', ev)) : nextCalls ev = cs := by
  induction cs generalizing s ev with
  | nil => cases h; rfl
  | cons c cs ih =>
    obtain ⟨s1, ev1, ev2, h1, h2, rfl⟩ := pass2_cons h
    obtain ⟨es, rfl, h3, -, -⟩ := step_available h1
    rw [nextCalls_append, nextCalls_append, h3, ih h2]; rfl

/-- Too few or too many ends of blocks. -/
theorem pass2_never {cfg : AsmCfg} {s s' : Asm} {cs : List Cb} {ev : List AsmEvent}
    (h : s.pass2 cfg cs = .ok (s', ev)) (hw : s.want ≤ 0 ∨ ((typeEnds cfg cs).length : Int) < s.want) :
    .allAvailable ∉ ev := by
  induction cs generalizing s ev with
  | nil => cases h; simp
  | cons c cs ih =>
    obtain ⟨s1, ev1, ev2, h1, h2, rfl⟩ := pass2_cons h
    obtain ⟨es, rfl, -, h4, h5⟩ := step_available h1
    have hl : (typeEnds cfg (c :: cs)).length = (typeEnds cfg [c]).length + (typeEnds cfg cs).length := by
      rw [← List.length_append]; congr 1
      rw [typeEnds_cons, typeEnds_cons cfg c []]; simp [typeEnds]
    rw [if_neg] at h5
    · simp only [List.mem_append, List.mem_singleton, reduceCtorEq, or_false, not_or]
      exact ⟨h5, ih h2 (by omega)⟩
    · rintro ⟨h6, h7⟩
      have := List.length_pos_iff.2 h6
      omega

theorem pass2_once {cfg : AsmCfg} {s s' : Asm} {cs : List Cb} {ev : List AsmEvent}
    (h : s.pass2 cfg cs = .ok (s', ev)) (hw : 1 ≤ s.want) (hl : s.want = ((typeEnds cfg cs).length : Int)) :
    ∃ a t b ev1 ev2, cs = a ++ [.after t] ++ b ∧ cfg.enabled t = true ∧ typeEnds cfg b = [] ∧
      ev = ev1 ++ [.allAvailable, .next (.after t)] ++ ev2 ∧ nextCalls ev1 = a ∧ nextCalls ev2 = b ∧
      .allAvailable ∉ ev1 ∧ .allAvailable ∉ ev2 := by
  induction cs generalizing s ev with
  | nil => simp [typeEnds] at hl; omega
  | cons c cs ih =>
    obtain ⟨s1, ev1, ev2, h1, h2, rfl⟩ := pass2_cons h
    obtain ⟨es, rfl, h3, h4, h5⟩ := step_available h1
    have hlen : (typeEnds cfg (c :: cs)).length = (typeEnds cfg [c]).length + (typeEnds cfg cs).length := by
      rw [← List.length_append]; congr 1
      rw [typeEnds_cons, typeEnds_cons cfg c []]; simp [typeEnds]
    by_cases hc : typeEnds cfg [c] ≠ [] ∧ s.want = 1
    · rw [if_pos hc] at h5
      subst h5
      have hp := List.length_pos_iff.2 hc.1
      have hb : typeEnds cfg cs = [] := List.length_eq_zero_iff.1 (by omega)
      obtain ⟨t, rfl, ht⟩ : ∃ t, c = .after t ∧ cfg.enabled t = true := by
        cases c with
        | after t =>
          refine ⟨t, rfl, ?_⟩
          by_contra hne
          exact hc.1 (by simp [typeEnds, hne])
        | obj o => exact absurd rfl hc.1
        | init m => exact absurd rfl hc.1
        | before t => exact absurd rfl hc.1
        | final => exact absurd rfl hc.1
      refine ⟨[], t, cs, [], ev2, rfl, ht, hb, rfl, rfl, pass2_next h2, by simp, ?_⟩
      exact pass2_never h2 (.inl (by omega))
    · rw [if_neg hc] at h5
      have h6 : s.want = 1 → (typeEnds cfg [c]).length = 0 := by
        intro h7
        by_contra h8
        exact hc ⟨fun h9 => h8 (by rw [h9]; rfl), h7⟩
      have h7 : (typeEnds cfg [c]).length ≤ 1 := by
        rw [typeEnds_cons]
        cases c <;> simp [typeEnds]
        split <;> simp
      obtain ⟨a, t, b, e1, e2, g1, g2, g3, g4, g5, g6, g7, g8⟩ := ih h2 (by omega) (by omega)
      refine ⟨c :: a, t, b, es ++ [.next c] ++ e1, e2, by simp [g1], g2, g3, by simp [g4], ?_, g6, ?_, g8⟩
      · rw [nextCalls_append, nextCalls_append, h3, g5]; rfl
      · simp [h5, g7]

theorem pass1_want {cfg : AsmCfg} {calls : List Cb} {s : Asm} (h : Asm.AfterPass1 cfg calls s) :
    s.want = (Asm.new cfg).want := by
  have hadd := added_pass1 cfg [] (Asm.new cfg) calls ⟨rfl, rfl, fun _ => rfl⟩
  unfold Asm.AfterPass1 at h
  by_cases hb : ((Asm.new cfg).pass1 cfg calls).2
  · simp only [hb, if_true] at h
    exact h.2.1.trans hadd.2.1
  · simp only [hb] at h
    rw [h]; exact hadd.2.1

/-- C104 (partial: the second pass has exactly one block of every enabled type): `all_members_available` is called once,
before the nested handler hears of the end of the last block of an enabled type; nothing the assembler looks at comes after
this. -/
theorem available_once_partial (cfg : AsmCfg) (calls1 calls2 : List Cb) (s s' : Asm) (ev : List AsmEvent)
    (h1 : Asm.AfterPass1 cfg calls1 s) (hr : s.pass2 cfg calls2 = .ok (s', ev)) (hn : enabledTypes cfg ≠ [])
    (hp : (typeEnds cfg calls2).Perm (enabledTypes cfg)) (hb : OneBlockEach calls2)
    (ho : ∀ o ∈ asmObjects cfg calls2, o.type ∈ enabledTypes cfg) :
    ∃ before t after ev1 ev2, calls2 = before ++ [.after t] ++ after ∧ asmObjects cfg after = [] ∧
      ev = ev1 ++ [.allAvailable, .next (.after t)] ++ ev2 ∧ nextCalls ev1 = before ∧ nextCalls ev2 = after ∧
      .allAvailable ∉ ev1 ∧ .allAvailable ∉ ev2 := by
  have hw : s.want = ((enabledTypes cfg).length : Int) := (pass1_want h1).trans (want_count cfg)
  have hpos := List.length_pos_iff.2 hn
  have hl := hp.length_eq
  obtain ⟨a, t, b, ev1, ev2, g1, g2, g3, g4, g5, g6, g7, g8⟩ := pass2_once hr (by omega) (by omega)
  refine ⟨a, t, b, ev1, ev2, g1, ?_, g4, g5, g6, g7, g8⟩
  rw [List.eq_nil_iff_forall_not_mem]
  intro o hob
  have hob2 : .obj o ∈ b := by
    unfold asmObjects at hob
    obtain ⟨c, hc, he⟩ := List.mem_filterMap.1 hob
    cases c with
    | obj o' =>
      simp only at he
      split at he
      · cases he; exact hc
      · cases he
    | after t => cases he
    | init m => cases he
    | before t => cases he
    | final => cases he
  have ht : o.type ∈ typeEnds cfg calls2 := by
    refine hp.mem_iff.2 (ho o ?_)
    rw [g1]
    unfold asmObjects at hob ⊢
    rw [List.filterMap_append]
    exact List.mem_append_right _ hob
  have ha : .after o.type ∈ a ++ [.after t] := by
    rw [g1] at ht
    unfold typeEnds at ht g3
    rw [List.filterMap_append, g3, List.append_nil] at ht
    obtain ⟨c, hc, he⟩ := List.mem_filterMap.1 ht
    cases c with
    | after t' =>
      simp only at he
      split at he
      · cases he; exact hc
      · cases he
    | obj o' => cases he
    | init m => cases he
    | before t => cases he
    | final => cases he
  rw [g1] at hb
  unfold OneBlockEach at hb
  exact (List.pairwise_append.1 hb).2.2 _ ha _ hob2 rfl

/-- C104 fails if there is no object of an enabled type in the input: `all_members_available` is never called. -/
theorem available_never (cfg : AsmCfg) (calls1 calls2 : List Cb) (s s' : Asm) (ev : List AsmEvent)
    (h1 : Asm.AfterPass1 cfg calls1 s) (hr : s.pass2 cfg calls2 = .ok (s', ev)) (t : ObjType)
    (ht : t ∈ enabledTypes cfg) (hno : t ∉ typeEnds cfg calls2) (hone : (typeEnds cfg calls2).Nodup)
    (hsub : ∀ x ∈ typeEnds cfg calls2, x ∈ enabledTypes cfg) : .allAvailable ∉ ev := by
  have hw : s.want = ((enabledTypes cfg).length : Int) := (pass1_want h1).trans (want_count cfg)
  refine pass2_never hr (.inr ?_)
  have hlt : (t :: typeEnds cfg calls2).length ≤ (enabledTypes cfg).length := by
    apply List.Subperm.length_le
    apply List.subperm_of_subset (List.nodup_cons.2 ⟨hno, hone⟩)
    intro x hx
    rcases List.mem_cons.1 hx with rfl | hx
    · exact ht
    · exact hsub x hx
  simp only [List.length_cons] at hlt
  omega

/-! ### Examples -/

/-- Data for the examples, no counterpart in /repo. -/
private def cfgNW : AsmCfg := ⟨fun t => t = .node ∨ t = .way, fun _ => true, fun _ _ => true⟩
/-- Data for the examples, no counterpart in /repo. -/
private def someNode : OsmObj := .node ⟨{ Obj.new with id := 5 }, .undef⟩
/-- Data for the examples, no counterpart in /repo. -/
private def someWay : OsmObj := .way ⟨{ Obj.new with id := 10 }, []⟩
/-- Data for the examples, no counterpart in /repo. -/
private def someRel : OsmObj := .relation ⟨{ Obj.new with id := 1 }, [⟨'w', 10, ""⟩, ⟨'n', 5, ""⟩]⟩

/-- The hypotheses can be met. -/
example : ∃ s, Asm.AfterPass1 cfgNW (protocol (Meta.new false) [someRel]) s ∧ enabledTypes cfgNW ≠ [] ∧
    (s.pass2 cfgNW (protocol (Meta.new false) [someNode, someWay, someRel])).toOption.isSome ∧
    (typeEnds cfgNW (protocol (Meta.new false) [someNode, someWay, someRel])).Perm (enabledTypes cfgNW) ∧
    OneBlockEach (protocol (Meta.new false) [someNode, someWay, someRel]) := by
  refine ⟨((Asm.new cfgNW).pass1 cfgNW (protocol (Meta.new false) [someRel])).1, ?_, by decide +kernel,
    by decide +kernel, by decide +kernel, ?_⟩
  · have h2 : ((Asm.new cfgNW).pass1 cfgNW (protocol (Meta.new false) [someRel])).2 = true := by decide +kernel
    unfold Asm.AfterPass1
    simp only [h2, if_true]
    refine ⟨rfl, rfl, fun t => ⟨List.Perm.refl _, ?_⟩⟩
    cases t <;> decide +kernel
  · unfold OneBlockEach
    simp [protocol, runs, runCalls, someNode, someWay, someRel, OsmObj.type]

/-- With no ways in the file the hook is not called. -/
example : let p := (Asm.new cfgNW).pass1 cfgNW (protocol (Meta.new false) [someRel])
    ((p.1.pass2 cfgNW (protocol (Meta.new false) [someNode])).toOption.map fun q =>
      q.2.contains .allAvailable) = some false := by
  decide +kernel

end Osmium
