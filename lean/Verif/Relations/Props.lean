import Verif.Relations.Lemmas
import Verif.Input.Props

/-
C40, C41, C42: the relations assembler.
-/
namespace Osmium
open Spec

theorem refersTo_iff (m : Member) (o : OsmObj) :
    refersTo m o = true ↔ memberKind m.type = some o.type ∧ m.ref = o.obj.id := by
  unfold refersTo memberKind
  cases o <;> simp only [OsmObj.type, Bool.and_eq_true, beq_iff_eq] <;>
  · constructor
    · rintro ⟨h1, h2⟩
      exact ⟨by simp [h2], h1⟩
    · rintro ⟨h1, h2⟩
      refine ⟨h2, ?_⟩
      grind

theorem refersTo_same {m : Member} {o o' : OsmObj} (h : refersTo m o = true)
    (h' : refersTo m o' = true) : o'.type = o.type ∧ o'.obj.id = o.obj.id := by
  rw [refersTo_iff] at h h'
  exact ⟨by have := h'.1.symm.trans h.1; simpa using this, h'.2.symm.trans h.2⟩

theorem miss_slots (cfg : AsmCfg) (seen : List OsmObj) (r : Relation) :
    miss cfg r (slots cfg seen r) = 0 ↔ AllSeen cfg seen r := by
  rw [miss_zero_iff]
  unfold AllSeen wanted slots
  constructor
  · intro h m hm
    rw [List.mem_filter] at hm
    obtain ⟨n, hn⟩ := List.mem_iff_getElem?.1 hm.1
    have := h n m hn hm.2
    rw [List.getElem?_map, hn] at this
    simp only [Option.map_some, hm.2, if_true, ne_eq, Option.some.injEq] at this
    cases hf : seen.find? (refersTo m) with
    | none => exact absurd hf this
    | some o => exact ⟨o, List.mem_of_find?_eq_some hf, List.find?_some hf⟩
  · intro h n m hn hk
    obtain ⟨o, ho, hr⟩ := h m (List.mem_filter.2 ⟨List.mem_of_getElem? hn, hk⟩)
    rw [List.getElem?_map, hn]
    simp only [Option.map_some, hk, if_true, ne_eq, Option.some.injEq]
    intro hc
    rw [List.find?_eq_none] at hc
    exact hc o ho hr

theorem completable_iff (cfg : AsmCfg) (seen : List OsmObj) (o : OsmObj) (r : Relation) :
    (miss cfg r (slots cfg seen r) ≠ 0 ∧ miss cfg r (slots cfg (seen ++ [o]) r) = 0) ↔
    (Completable cfg (seen ++ [o]) r ∧ ¬ Completable cfg seen r) := by
  rw [miss_slots]
  simp only [ne_eq, miss_slots]
  unfold Completable
  constructor
  · rintro ⟨h1, h2⟩
    refine ⟨⟨?_, h2⟩, fun h => h1 h.2⟩
    intro hw
    apply h1
    intro m hm; rw [hw] at hm; simp at hm
  · rintro ⟨⟨h1, h2⟩, h3⟩
    exact ⟨fun h => h3 ⟨h1, h⟩, h2⟩

theorem became_slots (cfg : AsmCfg) (rels : List Relation) (seen : List OsmObj) (o : OsmObj) :
    became cfg (rels.map fun r => (r, slots cfg seen r))
      (rels.map fun r => (r, slots cfg (seen ++ [o]) r)) =
    (rels.filter fun r => Completable cfg (seen ++ [o]) r ∧ ¬ Completable cfg seen r).map
      fun r => .complete r (slots cfg (seen ++ [o]) r) := by
  unfold became
  rw [List.zip_map', List.filter_map, List.map_map]
  congr 1
  apply List.filter_congr
  intro r _
  simp only [Function.comp]
  rw [decide_eq_decide]
  exact completable_iff cfg seen o r

/-- The entries for an object. -/
theorem range_mem (cfg : AsmCfg) (rels : List Relation) (o : OsmObj) (infos : List MemberInfo)
    (hp : infos.Perm (allInfos cfg o.type 0 rels)) (i : MemberInfo) :
    i ∈ infos.filter (fun i => i.id = o.obj.id) ↔ i.id = o.obj.id ∧ ∃ r m, rels[i.rel]? = some r ∧
      r.members[i.pos]? = some m ∧ cfg.keep r m = true ∧ refersTo m o = true := by
  rw [List.mem_filter, hp.mem_iff, mem_allInfos]
  simp only [decide_eq_true_eq, Nat.zero_le, true_and, Nat.sub_zero]
  constructor
  · rintro ⟨⟨r, m, h1, h2, h3, h4, h5⟩, h6⟩
    exact ⟨h6, r, m, h1, h2, h3, (refersTo_iff m o).2 ⟨h4, h5.symm.trans h6⟩⟩
  · rintro ⟨h6, r, m, h1, h2, h3, h4⟩
    rw [refersTo_iff] at h4
    exact ⟨⟨r, m, h1, h2, h3, h4.1, h6.trans h4.2.symm⟩, h6⟩

theorem find_none {seen : List OsmObj} {o : OsmObj}
    (hd : ∀ o' ∈ seen, ¬ (o'.type = o.type ∧ o'.obj.id = o.obj.id)) {m : Member}
    (h : refersTo m o = true) : seen.find? (refersTo m) = none := by
  rw [List.find?_eq_none]
  intro o' ho' h'
  exact hd o' ho' (refersTo_same h h')

theorem deliver_slots (cfg : AsmCfg) (rels : List Relation) (seen : List OsmObj) (o : OsmObj)
    (hd : ∀ o' ∈ seen, ¬ (o'.type = o.type ∧ o'.obj.id = o.obj.id)) (is : List MemberInfo)
    (his : ∀ i, i ∈ is ↔ i.id = o.obj.id ∧ ∃ r m, rels[i.rel]? = some r ∧
      r.members[i.pos]? = some m ∧ cfg.keep r m = true ∧ refersTo m o = true) :
    is.foldl (deliver1 o) (rels.map fun r => (r, slots cfg seen r)) =
      rels.map fun r => (r, slots cfg (seen ++ [o]) r) := by
  apply List.ext_getElem?
  intro k
  cases hk : rels[k]? with
  | none =>
    have h1 : rels.length ≤ k := by simpa using hk
    rw [List.getElem?_eq_none (by rw [foldl_deliver_length]; simpa using h1),
      List.getElem?_eq_none (by simpa using h1)]
  | some r =>
    obtain ⟨ps', h1, h2, h3⟩ := foldl_deliver_get o (rels.map fun r => (r, slots cfg seen r)) is k r
      (slots cfg seen r) (by rw [List.getElem?_map, hk]; rfl)
    rw [h1, List.getElem?_map, hk]
    simp only [Option.map_some, Option.some.injEq, Prod.mk.injEq, true_and]
    apply List.ext_getElem?
    intro n
    have hlen : ∀ s, (slots cfg s r).length = r.members.length := by intro s; simp [slots]
    by_cases hn : n < r.members.length
    · rw [h3 n (by rw [hlen]; exact hn)]
      obtain ⟨m, hm⟩ : ∃ m, r.members[n]? = some m := ⟨_, List.getElem?_eq_getElem hn⟩
      have hs : ∀ s, (slots cfg s r)[n]? = some (if cfg.keep r m then s.find? (refersTo m) else none) := by
        intro s; unfold slots; rw [List.getElem?_map, hm]; rfl
      rw [hs, hs]
      have hiff : (∃ i ∈ is, i.rel = k ∧ i.pos = n) ↔ (cfg.keep r m = true ∧ refersTo m o = true) := by
        constructor
        · rintro ⟨i, hi, rfl, rfl⟩
          obtain ⟨-, r', m', g1, g2, g3, g4⟩ := (his i).1 hi
          rw [hk] at g1; cases g1
          rw [hm] at g2; cases g2
          exact ⟨g3, g4⟩
        · rintro ⟨g1, g2⟩
          exact ⟨⟨o.obj.id, k, n⟩, (his _).2 ⟨rfl, r, m, hk, hm, g1, g2⟩, rfl, rfl⟩
      simp only [hiff]
      by_cases hkp : cfg.keep r m = true
      · by_cases hr : refersTo m o = true
        · simp [hkp, hr, List.find?_append, find_none hd hr]
        · simp [hkp, hr, List.find?_append]
      · simp [hkp]
    · rw [List.getElem?_eq_none (by rw [h2, hlen]; omega),
        List.getElem?_eq_none (by rw [hlen]; omega)]

/-- One object in the second pass. -/
theorem step_object (cfg : AsmCfg) (rels : List Relation) (seen : List OsmObj) (o : OsmObj)
    (s : Asm) (hrels : s.rels = (rels.map fun r => (r, slots cfg seen r)).map (slotOf cfg))
    (hp : (s.infos o.type).Perm (allInfos cfg o.type 0 rels))
    (hs : (s.infos o.type).Pairwise (fun a b => a.id ≤ b.id))
    (hd : ∀ o' ∈ seen, ¬ (o'.type = o.type ∧ o'.obj.id = o.obj.id))
    (he : cfg.enabled o.type = true) :
    ∃ es, s.step cfg (.obj o) = .ok ({ s with rels :=
        (rels.map fun r => (r, slots cfg (seen ++ [o]) r)).map (slotOf cfg) }, es ++ [.next (.obj o)]) ∧
      HooksFor cfg rels seen o es := by
  have hmem := range_mem cfg rels o (s.infos o.type) hp
  have hdel := deliver_slots cfg rels seen o hd _ hmem
  have hap : ((s.infos o.type).filter (fun i => i.id = o.obj.id)).Pairwise Apart := by
    refine List.Pairwise.sublist List.filter_sublist ?_
    refine hp.symm.pairwise (allInfos_apart cfg o.type 0 rels) ?_
    intro a b hab h
    exact hab ⟨h.1.symm, h.2.symm⟩
  have hopen : ∀ i ∈ (s.infos o.type).filter (fun i => i.id = o.obj.id),
      Open cfg o (rels.map fun r => (r, slots cfg seen r)) i := by
    intro i hi
    obtain ⟨hid, r, m, h1, h2, h3, h4⟩ := (hmem i).1 hi
    refine ⟨hid, r, slots cfg seen r, m, ?_, h2, h3, ?_⟩
    · rw [List.getElem?_map, h1]; rfl
    · unfold slots
      rw [List.getElem?_map, h2]
      simp [h3, find_none hd h4]
  simp only [Asm.step, he, if_true, equalRange_eq _ _ hs]
  cases hr : (s.infos o.type).filter (fun i => i.id = o.obj.id) with
  | nil =>
    refine ⟨[.notInAny o], ?_, ?_⟩
    · rw [hr, List.foldl_nil] at hdel
      rw [← hdel, ← hrels]
      simp
    · unfold HooksFor
      rw [if_neg]
      rintro ⟨r, hrm, m, hm, href⟩
      unfold wanted at hm
      rw [List.mem_filter] at hm
      obtain ⟨k, hk⟩ := List.mem_iff_getElem?.1 hrm
      obtain ⟨n, hn⟩ := List.mem_iff_getElem?.1 hm.1
      have := (hmem ⟨o.obj.id, k, n⟩).2 ⟨rfl, r, m, hk, hn, hm.2, href⟩
      rw [hr] at this; simp at this
  | cons i is =>
    rw [← hr]
    have hadd := addAll_eq cfg o (rels.map fun r => (r, slots cfg seen r)) _ hopen hap
    have hev := eventsAll_perm cfg o (rels.map fun r => (r, slots cfg seen r)) _ hopen hap
    rw [hdel] at hadd hev
    rw [became_slots] at hev
    refine ⟨eventsAll cfg o (rels.map fun r => (r, slots cfg seen r))
      ((s.infos o.type).filter (fun i => i.id = o.obj.id)), ?_, ?_⟩
    · rw [hr] at hadd ⊢
      simp only [hrels, hadd, bind, Except.bind, pure, Except.pure]
    · unfold HooksFor
      rw [if_pos]
      · exact hev
      · have hi : i ∈ (s.infos o.type).filter (fun i => i.id = o.obj.id) := by rw [hr]; simp
        obtain ⟨-, r, m, h1, h2, h3, h4⟩ := (hmem i).1 hi
        exact ⟨r, List.mem_of_getElem? h1, m, List.mem_filter.2 ⟨List.mem_of_getElem? h2, h3⟩, h4⟩

/-- The second pass from any reachable state. -/
theorem pass2_trace (cfg : AsmCfg) (rels : List Relation) (calls : List Cb) (seen : List OsmObj)
    (s : Asm) (hrels : s.rels = (rels.map fun r => (r, slots cfg seen r)).map (slotOf cfg))
    (hinf : ∀ o, Cb.obj o ∈ calls → cfg.enabled o.type = true →
      (s.infos o.type).Perm (allInfos cfg o.type 0 rels) ∧
      (s.infos o.type).Pairwise (fun a b => a.id ≤ b.id))
    (hd : DistinctObjects (seen ++ asmObjects cfg calls)) (hb : OneBlockEach calls) :
    ∃ s' ev, s.pass2 cfg calls = .ok (s', ev) ∧ Pass2Trace cfg rels seen s.want calls ev ∧
      s'.rels = (rels.map fun r => (r, slots cfg (seen ++ asmObjects cfg calls) r)).map (slotOf cfg) := by
  induction calls generalizing seen s with
  | nil => exact ⟨s, [], rfl, rfl, by simpa [asmObjects] using hrels⟩
  | cons c cs ih =>
    unfold OneBlockEach at hb
    rw [List.pairwise_cons] at hb
    have other : asmObjects cfg (c :: cs) = asmObjects cfg cs →
        s.step cfg c = .ok (s, [.next c]) →
        ((∃ ev, Pass2Trace cfg rels seen s.want cs ev) → True) →
        ∃ s' ev, s.pass2 cfg (c :: cs) = .ok (s', [.next c] ++ ev) ∧
          Pass2Trace cfg rels seen s.want cs ev ∧
          s'.rels = (rels.map fun r => (r, slots cfg (seen ++ asmObjects cfg (c :: cs)) r)).map
            (slotOf cfg) := by
      intro e1 e2 _
      obtain ⟨s', ev, h1, h2, h3⟩ := ih seen s hrels (fun o ho => hinf o (by simp [ho]))
        (by rw [← e1]; exact hd) hb.2
      refine ⟨s', ev, ?_, h2, by rw [e1]; exact h3⟩
      simp only [Asm.pass2, e2, h1, bind, Except.bind, pure, Except.pure]
    cases c with
    | obj o =>
      by_cases he : cfg.enabled o.type = true
      · have e1 : asmObjects cfg (.obj o :: cs) = o :: asmObjects cfg cs := by
          simp [asmObjects, he]
        have hd' : ∀ o' ∈ seen, ¬ (o'.type = o.type ∧ o'.obj.id = o.obj.id) := by
          unfold DistinctObjects at hd
          rw [e1, List.pairwise_append] at hd
          intro o' ho'
          exact hd.2.2 o' ho' o (by simp)
        obtain ⟨hp, hs⟩ := hinf o (by simp) he
        obtain ⟨es, hstep, hhook⟩ := step_object cfg rels seen o s hrels hp hs hd' he
        obtain ⟨s', ev, h1, h2, h3⟩ := ih (seen ++ [o])
          { s with rels := (rels.map fun r => (r, slots cfg (seen ++ [o]) r)).map (slotOf cfg) } rfl
          (fun o' ho' => hinf o' (by simp [ho']))
          (by rw [e1] at hd; simpa using hd) hb.2
        refine ⟨s', es ++ [.next (.obj o)] ++ ev, ?_, ?_, ?_⟩
        · simp only [Asm.pass2, hstep, h1, bind, Except.bind, pure, Except.pure]
        · refine ⟨es, ev, rfl, ?_⟩
          simp only [he, if_true]
          exact ⟨hhook, h2⟩
        · rw [e1]; simpa using h3
      · have e1 : asmObjects cfg (.obj o :: cs) = asmObjects cfg cs := by simp [asmObjects, he]
        obtain ⟨s', ev, h1, h2, h3⟩ := other e1 (by simp [Asm.step, he]) (fun _ => trivial)
        refine ⟨s', _, h1, ⟨[], ev, rfl, ?_⟩, h3⟩
        simpa [he] using h2
    | after t =>
      have e1 : asmObjects cfg (.after t :: cs) = asmObjects cfg cs := by simp [asmObjects]
      by_cases he : cfg.enabled t = true
      · obtain ⟨s', ev, h1, h2, h3⟩ := ih seen
          { s with infos := fun t' => if t' = t then [] else s.infos t', want := s.want - 1 } hrels
          (by
            intro o ho heo
            have hne : o.type ≠ t := hb.1 _ ho
            simp only [hne, if_false]
            exact hinf o (by simp [ho]) heo)
          (by rw [← e1]; exact hd) hb.2
        refine ⟨s', (if s.want - 1 = 0 then [.allAvailable] else []) ++ [.next (.after t)] ++ ev,
          ?_, ⟨if s.want - 1 = 0 then [.allAvailable] else [], ev, rfl, ?_⟩, by rw [e1]; exact h3⟩
        · simp only [Asm.pass2, Asm.step, he, if_true, h1, bind, Except.bind, pure, Except.pure]
        · simp only [he, if_true]
          refine ⟨?_, h2⟩
          by_cases hw : s.want = 1
          · simp [hw]
          · rw [if_neg (by omega), if_neg hw]
      · obtain ⟨s', ev, h1, h2, h3⟩ := other e1 (by simp [Asm.step, he]) (fun _ => trivial)
        refine ⟨s', _, h1, ⟨[], ev, rfl, ?_⟩, h3⟩
        simpa [he] using h2
    | init m =>
      obtain ⟨s', ev, h1, h2, h3⟩ := other (by simp [asmObjects]) rfl (fun _ => trivial)
      exact ⟨s', _, h1, ⟨[], ev, rfl, rfl, h2⟩, h3⟩
    | before t =>
      obtain ⟨s', ev, h1, h2, h3⟩ := other (by simp [asmObjects]) rfl (fun _ => trivial)
      exact ⟨s', _, h1, ⟨[], ev, rfl, rfl, h2⟩, h3⟩
    | final =>
      obtain ⟨s', ev, h1, h2, h3⟩ := other (by simp [asmObjects]) rfl (fun _ => trivial)
      exact ⟨s', _, h1, ⟨[], ev, rfl, rfl, h2⟩, h3⟩

/-- **C40, C41** (partial: the second pass must not contain two versions of the same object nor a
second block of a type; members of types that are not enabled never arrive).  For any first pass
and any order in which the entries with equal ids are sorted, the second pass does not fail, and
calls the hooks exactly as specified: each relation is completed when the last wanted member
arrives, with each wanted member in its slot; objects nothing refers to are reported; all
callbacks are passed on after the hooks. -/
theorem assembler_trace_partial (cfg : AsmCfg) (calls1 calls2 : List Cb) (s : Asm)
    (h1 : Asm.AfterPass1 cfg calls1 s)
    (hend : asmRelations cfg calls1 ≠ [] → Cb.after .relation ∈ calls1)
    (hd : DistinctObjects (asmObjects cfg calls2)) (hb : OneBlockEach calls2) :
    ∃ s' ev, s.pass2 cfg calls2 = .ok (s', ev) ∧
      Pass2Trace cfg (asmRelations cfg calls1) [] (Asm.new cfg).want calls2 ev := by
  obtain ⟨g1, g2, g3⟩ := asm_added cfg calls1 s h1 hend
  have e : ∀ r, slots cfg [] r = r.members.map fun _ => none := by
    intro r; unfold slots; simp
  obtain ⟨s', ev, k1, k2, -⟩ := pass2_trace cfg (asmRelations cfg calls1) calls2 [] s
    (by simp only [e]; exact g1) (fun o _ _ => g3 o.type) (by simpa using hd) hb
  rw [g2] at k2
  exact ⟨s', ev, k1, k2⟩

/-- **C42** (partial in the same sense): after the second pass, removing the assembled relations
leaves exactly those for which a wanted member is missing, in the original order, each with the
members that did arrive. -/
theorem assembler_incomplete_partial (cfg : AsmCfg) (calls1 calls2 : List Cb) (s s' : Asm)
    (ev : List AsmEvent) (h1 : Asm.AfterPass1 cfg calls1 s)
    (hend : asmRelations cfg calls1 ≠ [] → Cb.after .relation ∈ calls1)
    (hd : DistinctObjects (asmObjects cfg calls2)) (hb : OneBlockEach calls2)
    (hr : s.pass2 cfg calls2 = .ok (s', ev)) :
    s'.clean.rels.map (fun i => (i.relation, i.members)) =
      ((asmRelations cfg calls1).filter fun r => ¬ AllSeen cfg (asmObjects cfg calls2) r).map
        fun r => (some r, slots cfg (asmObjects cfg calls2) r) := by
  obtain ⟨g1, g2, g3⟩ := asm_added cfg calls1 s h1 hend
  have e : ∀ r, slots cfg [] r = r.members.map fun _ => none := by
    intro r; unfold slots; simp
  obtain ⟨s2, ev2, k1, -, k3⟩ := pass2_trace cfg (asmRelations cfg calls1) calls2 [] s
    (by simp only [e]; exact g1) (fun o _ _ => g3 o.type) (by simpa using hd) hb
  rw [hr] at k1
  simp only [Except.ok.injEq, Prod.mk.injEq] at k1
  obtain ⟨rfl, rfl⟩ := k1
  simp only [List.nil_append] at k3
  unfold Asm.clean
  simp only [k3, List.map_map]
  generalize asmRelations cfg calls1 = rels
  induction rels with
  | nil => rfl
  | cons r rels ih =>
    simp only [List.map_cons, List.filter_cons]
    have hm := miss_slots cfg (asmObjects cfg calls2) r
    by_cases ha : AllSeen cfg (asmObjects cfg calls2) r
    · have h0 := hm.2 ha
      have : ((slotOf cfg ∘ fun r => (r, slots cfg (asmObjects cfg calls2) r)) r).hasAll = true := by
        simp only [Function.comp, slotOf]
        split
        · simp [RelInfo.hasAll, RelInfo.empty]
        · simp [RelInfo.hasAll, h0]
      simp only [this, ha, not_true_eq_false, decide_false]
      exact ih
    · have h0 : miss cfg r (slots cfg (asmObjects cfg calls2) r) ≠ 0 := fun h => ha (hm.1 h)
      have hsl : (slotOf cfg ∘ fun r => (r, slots cfg (asmObjects cfg calls2) r)) r =
          ⟨some r, slots cfg (asmObjects cfg calls2) r,
            (miss cfg r (slots cfg (asmObjects cfg calls2) r) : Int)⟩ := by
        simp only [Function.comp, slotOf]
        rw [if_neg (fun h => h0 h.2)]
      rw [hsl]
      have : RelInfo.hasAll ⟨some r, slots cfg (asmObjects cfg calls2) r,
            (miss cfg r (slots cfg (asmObjects cfg calls2) r) : Int)⟩ = false := by
        simp [RelInfo.hasAll, h0]
      simp only [this, ha, not_false_eq_true, decide_true, if_true, List.map_cons,
        Bool.false_eq_true]
      rw [ih]

/-- The relations that were completed, with their members. -/
def completions (ev : List AsmEvent) : List (Relation × List (Option OsmObj)) :=
  ev.filterMap fun | .complete r ms => some (r, ms) | _ => none

/-- The objects reported as not in any relation. -/
def notInAnys (ev : List AsmEvent) : List OsmObj :=
  ev.filterMap fun | .notInAny o => some o | _ => none

/-- The calls on the nested handler. -/
def nextCalls (ev : List AsmEvent) : List Cb :=
  ev.filterMap fun | .next c => some c | _ => none

theorem allSeen_mono {cfg : AsmCfg} {seen : List OsmObj} {r : Relation} (h : AllSeen cfg seen r)
    (more : List OsmObj) : AllSeen cfg (seen ++ more) r := by
  intro m hm
  obtain ⟨o, ho, hr⟩ := h m hm
  exact ⟨o, by simp [ho], hr⟩

theorem slots_mono {cfg : AsmCfg} {seen : List OsmObj} {r : Relation} (h : AllSeen cfg seen r)
    (more : List OsmObj) : slots cfg (seen ++ more) r = slots cfg seen r := by
  unfold slots
  apply List.map_congr_left
  intro m hm
  split
  · rename_i hk
    obtain ⟨o, ho, hr⟩ := h m (List.mem_filter.2 ⟨hm, hk⟩)
    rw [List.find?_append]
    cases hf : seen.find? (refersTo m) with
    | none => rw [List.find?_eq_none] at hf; exact absurd hr (hf o ho)
    | some x => rfl
  · rfl

/-- What the events of a second pass amount to. -/
theorem trace_summary (cfg : AsmCfg) (rels : List Relation) (calls : List Cb) (seen : List OsmObj)
    (left : Int) (ev : List AsmEvent) (h : Pass2Trace cfg rels seen left calls ev) :
    (completions ev).Perm ((rels.filter fun r =>
        Completable cfg (seen ++ asmObjects cfg calls) r ∧ ¬ Completable cfg seen r).map
      fun r => (r, slots cfg (seen ++ asmObjects cfg calls) r)) ∧
    notInAnys ev = (asmObjects cfg calls).filter (fun o => ¬ Referenced cfg rels o) ∧
    nextCalls ev = calls := by
  induction calls generalizing seen left ev with
  | nil =>
    cases h
    refine ⟨?_, rfl, rfl⟩
    simp [completions, asmObjects]
  | cons c cs ih =>
    obtain ⟨es, rest, rfl, h⟩ := h
    have quiet : ∀ l, Pass2Trace cfg rels seen l cs rest → completions es = [] →
        notInAnys es = [] → nextCalls es = [] → asmObjects cfg (c :: cs) = asmObjects cfg cs →
        (completions (es ++ [.next c] ++ rest)).Perm ((rels.filter fun r =>
          Completable cfg (seen ++ asmObjects cfg (c :: cs)) r ∧ ¬ Completable cfg seen r).map
          fun r => (r, slots cfg (seen ++ asmObjects cfg (c :: cs)) r)) ∧
        notInAnys (es ++ [.next c] ++ rest) =
          (asmObjects cfg (c :: cs)).filter (fun o => ¬ Referenced cfg rels o) ∧
        nextCalls (es ++ [.next c] ++ rest) = c :: cs := by
      intro l hl h1 h2 h3 h4
      obtain ⟨k1, k2, k3⟩ := ih seen l rest hl
      unfold completions notInAnys nextCalls at *
      rw [h4]
      simp only [List.filterMap_append, h1, h2, h3, k2, k3]
      exact ⟨k1, rfl, rfl⟩
    cases c with
    | obj o =>
      by_cases he : cfg.enabled o.type = true
      · simp only [he, if_true] at h
        obtain ⟨hh, ht⟩ := h
        obtain ⟨k1, k2, k3⟩ := ih _ _ _ ht
        have e1 : asmObjects cfg (.obj o :: cs) = o :: asmObjects cfg cs := by
          simp [asmObjects, he]
        have e2 : seen ++ o :: asmObjects cfg cs = seen ++ [o] ++ asmObjects cfg cs := by simp
        rw [e1, e2]
        generalize hall : seen ++ [o] ++ asmObjects cfg cs = all at *
        have hmono1 : ∀ r, Completable cfg seen r → Completable cfg (seen ++ [o]) r :=
          fun r h => ⟨h.1, allSeen_mono h.2 _⟩
        have hmono2 : ∀ r, Completable cfg (seen ++ [o]) r → Completable cfg all r :=
          fun r h => ⟨h.1, by rw [← hall]; exact allSeen_mono h.2 _⟩
        have hslots : ∀ r, Completable cfg (seen ++ [o]) r →
            slots cfg all r = slots cfg (seen ++ [o]) r :=
          fun r h => by rw [← hall]; exact slots_mono h.2 _
        -- the relations completed now or later
        have hsplit : ∀ l : List Relation,
            ((l.filter fun r => Completable cfg all r ∧ ¬ Completable cfg seen r).map
              fun r => (r, slots cfg all r)).Perm
            (((l.filter fun r => Completable cfg (seen ++ [o]) r ∧ ¬ Completable cfg seen r).map
              fun r => (r, slots cfg (seen ++ [o]) r)) ++
             ((l.filter fun r => Completable cfg all r ∧ ¬ Completable cfg (seen ++ [o]) r).map
              fun r => (r, slots cfg all r))) := by
          intro l
          induction l with
          | nil => simp
          | cons r l ihl =>
            by_cases a1 : Completable cfg seen r
            · have a2 := hmono1 r a1
              have a3 := hmono2 r a2
              simpa [List.filter_cons, a1, a2, a3] using ihl
            · by_cases a2 : Completable cfg (seen ++ [o]) r
              · have a3 := hmono2 r a2
                simpa [List.filter_cons, a1, a2, a3, hslots r a2] using ihl
              · by_cases a3 : Completable cfg all r
                · simp only [List.filter_cons, a1, a2, a3, not_false_eq_true, and_self, decide_true,
                    if_true, false_and, decide_false, Bool.false_eq_true, if_false, List.map_cons,
                    not_true_eq_false]
                  exact (ihl.cons _).trans List.perm_middle.symm
                · simpa [List.filter_cons, a1, a2, a3] using ihl
        unfold HooksFor at hh
        by_cases hr : Referenced cfg rels o
        · rw [if_pos hr] at hh
          have g1 : (completions es).Perm ((rels.filter fun r =>
              Completable cfg (seen ++ [o]) r ∧ ¬ Completable cfg seen r).map
              fun r => (r, slots cfg (seen ++ [o]) r)) := by
            refine (hh.filterMap _).trans ?_
            rw [List.filterMap_map]
            rw [show ((fun e : AsmEvent => match e with
              | .complete r ms => some (r, ms) | _ => none) ∘ fun r =>
              AsmEvent.complete r (slots cfg (seen ++ [o]) r)) =
              fun r => some (r, slots cfg (seen ++ [o]) r) from rfl, List.filterMap_eq_map']
          have g2 : notInAnys es = [] := by
            unfold notInAnys
            rw [List.filterMap_eq_nil_iff]
            intro e hemem
            rw [hh.mem_iff] at hemem
            obtain ⟨r, -, rfl⟩ := List.mem_map.1 hemem
            rfl
          have g3 : nextCalls es = [] := by
            unfold nextCalls
            rw [List.filterMap_eq_nil_iff]
            intro e hemem
            rw [hh.mem_iff] at hemem
            obtain ⟨r, -, rfl⟩ := List.mem_map.1 hemem
            rfl
          unfold completions notInAnys nextCalls at *
          simp only [List.filterMap_append, g2, g3, k2, k3]
          refine ⟨?_, by simp [List.filter_cons, hr], rfl⟩
          refine List.Perm.trans ?_ (hsplit rels).symm
          simp only [List.filterMap_cons, List.filterMap_nil, List.append_nil]
          exact g1.append k1
        · rw [if_neg hr] at hh
          subst hh
          have hnone : (rels.filter fun r =>
              Completable cfg (seen ++ [o]) r ∧ ¬ Completable cfg seen r) = [] := by
            rw [List.filter_eq_nil_iff]
            intro r hrm
            simp only [decide_eq_true_eq, not_and, not_not]
            rintro ⟨hw, hs⟩
            refine ⟨hw, fun m hm => ?_⟩
            obtain ⟨x, hx, hxr⟩ := hs m hm
            rcases List.mem_append.1 hx with hx | hx
            · exact ⟨x, hx, hxr⟩
            · simp only [List.mem_singleton] at hx
              subst hx
              exact absurd ⟨r, hrm, m, hm, hxr⟩ hr
          have hs := hsplit rels
          rw [hnone, List.map_nil, List.nil_append] at hs
          unfold completions notInAnys nextCalls at *
          simp only [List.filterMap_append, k2, k3]
          refine ⟨?_, by simp [List.filter_cons, hr], rfl⟩
          simp only [List.filterMap_cons, List.filterMap_nil, List.nil_append]
          exact k1.trans hs.symm
      · simp only [he] at h
        obtain ⟨rfl, ht⟩ := h
        exact quiet left ht rfl rfl rfl (by simp [asmObjects, he])
    | after t =>
      by_cases he : cfg.enabled t = true
      · simp only [he, if_true] at h
        obtain ⟨rfl, ht⟩ := h
        refine quiet (left - 1) ht ?_ ?_ ?_ (by simp [asmObjects]) <;>
        · split <;> rfl
      · simp only [he] at h
        obtain ⟨rfl, ht⟩ := h
        exact quiet left ht rfl rfl rfl (by simp [asmObjects])
    | init m => obtain ⟨rfl, ht⟩ := h; exact quiet left ht rfl rfl rfl (by simp [asmObjects])
    | before t => obtain ⟨rfl, ht⟩ := h; exact quiet left ht rfl rfl rfl (by simp [asmObjects])
    | final => obtain ⟨rfl, ht⟩ := h; exact quiet left ht rfl rfl rfl (by simp [asmObjects])

/-- **C40** (partial, as `assembler_trace_partial`): over a whole run, the completed relations are
exactly those with at least one wanted member all of whose wanted members occur in the second pass,
each exactly as often as it was added in the first pass, with each wanted member in its slot. -/
theorem assembler_completions_partial (cfg : AsmCfg) (calls1 calls2 : List Cb) (s s' : Asm)
    (ev : List AsmEvent) (h1 : Asm.AfterPass1 cfg calls1 s)
    (hend : asmRelations cfg calls1 ≠ [] → Cb.after .relation ∈ calls1)
    (hd : DistinctObjects (asmObjects cfg calls2)) (hb : OneBlockEach calls2)
    (hr : s.pass2 cfg calls2 = .ok (s', ev)) :
    (completions ev).Perm
      (((asmRelations cfg calls1).filter fun r => Completable cfg (asmObjects cfg calls2) r).map
        fun r => (r, slots cfg (asmObjects cfg calls2) r)) := by
  obtain ⟨s2, ev2, k1, k2⟩ := assembler_trace_partial cfg calls1 calls2 s h1 hend hd hb
  rw [hr] at k1
  simp only [Except.ok.injEq, Prod.mk.injEq] at k1
  obtain ⟨-, rfl⟩ := k1
  obtain ⟨g, -, -⟩ := trace_summary _ _ _ _ _ _ k2
  refine g.trans ?_
  simp only [List.nil_append]
  have : ∀ r, ¬ Completable cfg [] r := by
    rintro r ⟨hw, hs⟩
    cases hc : wanted cfg r with
    | nil => exact hw hc
    | cons m ms =>
      obtain ⟨o, ho, -⟩ := hs m (by rw [hc]; simp)
      simp at ho
  simp only [this, not_false_eq_true, and_true]
  exact List.Perm.refl _

/-- **C41** (partial, as `assembler_trace_partial`): the objects reported as not in any relation
are exactly those no wanted member refers to, in order; and the nested handler gets all calls. -/
theorem assembler_not_in_any_partial (cfg : AsmCfg) (calls1 calls2 : List Cb) (s s' : Asm)
    (ev : List AsmEvent) (h1 : Asm.AfterPass1 cfg calls1 s)
    (hend : asmRelations cfg calls1 ≠ [] → Cb.after .relation ∈ calls1)
    (hd : DistinctObjects (asmObjects cfg calls2)) (hb : OneBlockEach calls2)
    (hr : s.pass2 cfg calls2 = .ok (s', ev)) :
    notInAnys ev = (asmObjects cfg calls2).filter
      (fun o => ¬ Referenced cfg (asmRelations cfg calls1) o) ∧ nextCalls ev = calls2 := by
  obtain ⟨s2, ev2, k1, k2⟩ := assembler_trace_partial cfg calls1 calls2 s h1 hend hd hb
  rw [hr] at k1
  simp only [Except.ok.injEq, Prod.mk.injEq] at k1
  obtain ⟨-, rfl⟩ := k1
  exact (trace_summary _ _ _ _ _ _ k2).2

/-! ### examples -/

private def aNode (id : Int) : OsmObj := .node ⟨{ Obj.new with id := id }, .undef⟩
private def aWay (id : Int) : OsmObj := .way ⟨{ Obj.new with id := id }, []⟩
private def aRel (id : Int) (ms : List Member) : Relation := ⟨{ Obj.new with id := id }, ms⟩
private def cfgAll : AsmCfg := ⟨fun t => t = .node ∨ t = .way ∨ t = .relation, fun _ => true, fun _ _ => true⟩
private def r1 := aRel 1 [⟨'w', 10, ""⟩, ⟨'n', 5, ""⟩, ⟨'w', 10, "x"⟩]
private def r2 := aRel 2 [⟨'w', 10, ""⟩, ⟨'w', 11, ""⟩]
private def m0 := Meta.new false

/-- A run with shared and repeated members: the events of the second pass. -/
example : (do
    let p := (Asm.new cfgAll).pass1 cfgAll (protocol m0 [.relation r1, .relation r2])
    let q ← p.1.pass2 cfgAll (protocol m0 [aNode 5, aWay 10, aWay 12])
    return q.2.filter (fun | .next _ => false | _ => true)) =
    Except.ok [.complete r1 [some (aWay 10), some (aNode 5), some (aWay 10)], .notInAny (aWay 12)] := by
  decide +kernel

example : DistinctObjects (asmObjects cfgAll (protocol m0 [aNode 5, aWay 10, aWay 12])) := by
  unfold DistinctObjects; decide +kernel

example : OneBlockEach (protocol m0 [aNode 5, aWay 10, aWay 12]) := by
  unfold OneBlockEach
  simp [protocol, runs, runCalls, aNode, aWay, OsmObj.type]

/-- **C40** fails when the second pass contains two versions of an object: the relation is
completed although a wanted member never arrived. -/
theorem assembler_two_versions :
    (do
      let p := (Asm.new cfgAll).pass1 cfgAll (protocol m0 [.relation r2])
      let q ← p.1.pass2 cfgAll (protocol m0 [aWay 10, aWay 10])
      return completions q.2) =
    Except.ok [(r2, [some (aWay 10), none])] := by
  decide +kernel

/-- **C40**: and if the relation is complete already, an assertion fails. -/
theorem assembler_version_after_completion :
    (do
      let p := (Asm.new cfgAll).pass1 cfgAll (protocol m0 [.relation r2])
      let q ← p.1.pass2 cfgAll (protocol m0 [aWay 10, aWay 11, aWay 11])
      return completions q.2) = Except.error .assertion := by
  decide +kernel

/-- **C40** fails for wanted members of a type that is not enabled: the relation is never
completed although all its members are in the input. -/
theorem assembler_type_not_enabled :
    (do
      let cfg : AsmCfg := ⟨fun t => t = .way, fun _ => true, fun _ _ => true⟩
      let p := (Asm.new cfg).pass1 cfg (protocol m0 [.relation r1])
      let q ← p.1.pass2 cfg (protocol m0 [aNode 5, aWay 10])
      return (completions q.2, q.1.clean.rels.map (·.relation))) =
    Except.ok (([] : List (Relation × List (Option OsmObj))), [some r1]) := by
  decide +kernel

/-- **C41** fails for a second block of the same type: the entries are gone. -/
theorem assembler_second_block :
    (do
      let p := (Asm.new cfgAll).pass1 cfgAll (protocol m0 [.relation r2])
      let q ← p.1.pass2 cfgAll (protocol m0 [aWay 12, aNode 5, aWay 10])
      return notInAnys q.2) = Except.ok [aWay 12, aNode 5, aWay 10] := by
  decide +kernel

end Osmium
