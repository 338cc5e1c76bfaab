import Verif.Relations.Spec
import Mathlib.Data.List.Perm.Basic

/-
Lemmas about the relations assembler.
-/
namespace Osmium
open Spec

/-- The number of wanted members whose slot is empty. -/
def miss (cfg : AsmCfg) (r : Relation) (ps : List (Option OsmObj)) : Nat :=
  (r.members.zip ps).countP fun q => cfg.keep r q.1 && q.2.isNone

/-- The entry in the vector of relations for a relation and the members it has. -/
def slotOf (cfg : AsmCfg) (x : Relation × List (Option OsmObj)) : RelInfo :=
  if wanted cfg x.1 ≠ [] ∧ miss cfg x.1 x.2 = 0 then RelInfo.empty
  else ⟨some x.1, x.2, (miss cfg x.1 x.2 : Int)⟩

theorem countP_zip_set {α β : Type} (p : α × β → Bool) (as : List α) (bs : List β) (n : Nat)
    (a : α) (b b' : β) (ha : as[n]? = some a) (hb : bs[n]? = some b) (h1 : p (a, b) = true)
    (h2 : p (a, b') = false) :
    (as.zip (bs.set n b')).countP p + 1 = (as.zip bs).countP p := by
  induction n generalizing as bs with
  | zero =>
    cases as with
    | nil => simp at ha
    | cons x as =>
      cases bs with
      | nil => simp at hb
      | cons y bs =>
        simp at ha hb; subst ha; subst hb
        simp [List.countP_cons, h1, h2]
  | succ n ih =>
    cases as with
    | nil => simp at ha
    | cons x as =>
      cases bs with
      | nil => simp at hb
      | cons y bs =>
        simp at ha hb
        have := ih as bs ha hb
        simp only [List.set_cons_succ, List.zip_cons_cons, List.countP_cons]
        omega

theorem miss_set (cfg : AsmCfg) (r : Relation) (ps : List (Option OsmObj)) (n : Nat) (m : Member)
    (o : OsmObj) (hm : r.members[n]? = some m) (hk : cfg.keep r m = true)
    (hp : ps[n]? = some none) :
    miss cfg r (ps.set n (some o)) + 1 = miss cfg r ps :=
  countP_zip_set _ _ _ n m none (some o) hm hp (by simp [hk]) (by simp)

theorem miss_zero_iff (cfg : AsmCfg) (r : Relation) (ps : List (Option OsmObj)) :
    miss cfg r ps = 0 ↔ ∀ (n : Nat) m, r.members[n]? = some m → cfg.keep r m = true → ps[n]? ≠ some none := by
  unfold miss
  rw [List.countP_eq_zero]
  constructor
  · intro h n m hm hk hp
    have : (m, (none : Option OsmObj)) ∈ r.members.zip ps := by
      rw [List.mem_iff_getElem?]
      exact ⟨n, by rw [List.getElem?_zip_eq_some]; exact ⟨hm, hp⟩⟩
    have := h _ this
    simp [hk] at this
  · intro h q hq
    rw [List.mem_iff_getElem?] at hq
    obtain ⟨n, hn⟩ := hq
    rw [List.getElem?_zip_eq_some] at hn
    have := h n q.1 hn.1
    intro hc
    simp only [Bool.and_eq_true, Option.isNone_iff_eq_none] at hc
    exact this hc.1 (by rw [hn.2, hc.2])

theorem wanted_ne_nil (cfg : AsmCfg) (r : Relation) (n : Nat) (m : Member)
    (hm : r.members[n]? = some m) (hk : cfg.keep r m = true) : wanted cfg r ≠ [] := by
  have : m ∈ wanted cfg r := by
    unfold wanted; rw [List.mem_filter]; exact ⟨List.mem_of_getElem? hm, hk⟩
  exact List.ne_nil_of_mem this

/-- Delivering an object into a slot. -/
def deliver1 (o : OsmObj) (L : List (Relation × List (Option OsmObj))) (i : MemberInfo) :
    List (Relation × List (Option OsmObj)) :=
  L.modify i.rel fun x => (x.1, x.2.set i.pos (some o))

/-- An entry is deliverable: the relation wants this member and does not have it. -/
def Open (cfg : AsmCfg) (o : OsmObj) (L : List (Relation × List (Option OsmObj))) (i : MemberInfo) :
    Prop :=
  i.id = o.obj.id ∧ ∃ r ps m, L[i.rel]? = some (r, ps) ∧ r.members[i.pos]? = some m ∧
    cfg.keep r m = true ∧ ps[i.pos]? = some none

/-- Events for one delivery. -/
def events1 (cfg : AsmCfg) (o : OsmObj) (L : List (Relation × List (Option OsmObj)))
    (i : MemberInfo) : List AsmEvent :=
  match L[i.rel]? with
  | none => []
  | some (r, ps) =>
    if miss cfg r (ps.set i.pos (some o)) = 0 then [.complete r (ps.set i.pos (some o))] else []

theorem addOne_eq (cfg : AsmCfg) (o : OsmObj) (L : List (Relation × List (Option OsmObj)))
    (i : MemberInfo) (h : Open cfg o L i) :
    addOne o (L.map (slotOf cfg)) i =
      .ok ((deliver1 o L i).map (slotOf cfg), events1 cfg o L i) := by
  obtain ⟨hid, r, ps, m, hL, hm, hk, hp⟩ := h
  have hmiss := miss_set cfg r ps i.pos m o hm hk hp
  have hw := wanted_ne_nil cfg r i.pos m hm hk
  have hslot : slotOf cfg (r, ps) = ⟨some r, ps, (miss cfg r ps : Int)⟩ := by
    unfold slotOf; rw [if_neg]; simp only [not_and]; intro; omega
  have hlen : i.pos < r.members.length := by
    rw [List.getElem?_eq_some_iff] at hm; exact hm.1
  have hset : ∀ y, (L.map (slotOf cfg)).set i.rel (slotOf cfg y) = (L.set i.rel y).map (slotOf cfg) := by
    intro y; rw [List.map_set]
  have hdel : deliver1 o L i = L.set i.rel (r, ps.set i.pos (some o)) := by
    unfold deliver1
    rw [List.modify_eq_set_getElem?, hL]; rfl
  unfold addOne
  rw [if_pos hid, List.getElem?_map, hL]
  simp only [Option.map_some, hslot, hlen, if_true]
  unfold RelInfo.addMember
  rw [if_pos (show (miss cfg r ps : Int) > 0 by omega)]
  simp only [hlen, if_true, bind, Except.bind, pure, Except.pure]
  rw [hdel, ← hset]
  unfold events1
  rw [hL]
  by_cases h0 : miss cfg r (ps.set i.pos (some o)) = 0
  · have e : slotOf cfg (r, ps.set i.pos (some o)) = RelInfo.empty := by
      unfold slotOf; rw [if_pos ⟨hw, h0⟩]
    have : (miss cfg r ps : Int) - 1 = 0 := by omega
    simp [this, h0, e]
  · have e : slotOf cfg (r, ps.set i.pos (some o)) =
        ⟨some r, ps.set i.pos (some o), (miss cfg r ps : Int) - 1⟩ := by
      unfold slotOf
      rw [if_neg (by simp [h0])]
      have : (miss cfg r (ps.set i.pos (some o)) : Int) = (miss cfg r ps : Int) - 1 := by omega
      simp only [this]
    have : ¬ (miss cfg r ps : Int) - 1 = 0 := by omega
    simp [this, h0, e]

/-- Events for several deliveries. -/
def eventsAll (cfg : AsmCfg) (o : OsmObj) :
    List (Relation × List (Option OsmObj)) → List MemberInfo → List AsmEvent
  | _, [] => []
  | L, i :: is => events1 cfg o L i ++ eventsAll cfg o (deliver1 o L i) is

theorem deliver1_get (o : OsmObj) (L : List (Relation × List (Option OsmObj))) (i : MemberInfo)
    (k : Nat) : (deliver1 o L i)[k]? = (L[k]?).map (fun x =>
      if i.rel = k then (x.1, x.2.set i.pos (some o)) else x) := by
  unfold deliver1
  rw [List.getElem?_modify]
  cases L[k]? with
  | none => simp
  | some x => by_cases h : i.rel = k <;> simp [h]

/-- Different places. -/
def Apart (a b : MemberInfo) : Prop := ¬ (a.rel = b.rel ∧ a.pos = b.pos)

theorem open_deliver (cfg : AsmCfg) (o : OsmObj) (L : List (Relation × List (Option OsmObj)))
    (i j : MemberInfo) (h : Open cfg o L j) (hij : Apart i j) : Open cfg o (deliver1 o L i) j := by
  obtain ⟨hid, r, ps, m, hL, hm, hk, hp⟩ := h
  by_cases e : i.rel = j.rel
  · refine ⟨hid, r, ps.set i.pos (some o), m, ?_, hm, hk, ?_⟩
    · rw [deliver1_get, hL]; simp [e]
    · have : i.pos ≠ j.pos := fun h => hij ⟨e, h⟩
      rw [List.getElem?_set_ne this]; exact hp
  · refine ⟨hid, r, ps, m, ?_, hm, hk, hp⟩
    rw [deliver1_get, hL]; simp [e]

theorem addAll_eq (cfg : AsmCfg) (o : OsmObj) (L : List (Relation × List (Option OsmObj)))
    (is : List MemberInfo) (h : ∀ i ∈ is, Open cfg o L i) (hn : is.Pairwise Apart) :
    addAll o (L.map (slotOf cfg)) is =
      .ok ((is.foldl (deliver1 o) L).map (slotOf cfg), eventsAll cfg o L is) := by
  induction is generalizing L with
  | nil => rfl
  | cons i is ih =>
    rw [List.pairwise_cons] at hn
    have h1 := addOne_eq cfg o L i (h i (by simp))
    have h2 := ih (deliver1 o L i)
      (fun j hj => open_deliver cfg o L i j (h j (by simp [hj])) (hn.1 j hj)) hn.2
    simp only [addAll, h1, h2, bind, Except.bind, pure, Except.pure, eventsAll, List.foldl_cons]

theorem foldl_deliver_length (o : OsmObj) (L : List (Relation × List (Option OsmObj)))
    (is : List MemberInfo) : (is.foldl (deliver1 o) L).length = L.length := by
  induction is generalizing L with
  | nil => rfl
  | cons i is ih => rw [List.foldl_cons, ih]; unfold deliver1; simp

/-- Entry `k` after all deliveries. -/
theorem foldl_deliver_get (o : OsmObj) (L : List (Relation × List (Option OsmObj)))
    (is : List MemberInfo) (k : Nat) (r : Relation) (ps : List (Option OsmObj))
    (hL : L[k]? = some (r, ps)) :
    ∃ ps', (is.foldl (deliver1 o) L)[k]? = some (r, ps') ∧ ps'.length = ps.length ∧
      ∀ n, n < ps.length →
        ps'[n]? = if (∃ i ∈ is, i.rel = k ∧ i.pos = n) then some (some o) else ps[n]? := by
  induction is generalizing L ps with
  | nil => exact ⟨ps, hL, rfl, by simp⟩
  | cons i is ih =>
    by_cases e : i.rel = k
    · have h1 : (deliver1 o L i)[k]? = some (r, ps.set i.pos (some o)) := by
        rw [deliver1_get, hL]; simp [e]
      obtain ⟨ps', h2, h3, h4⟩ := ih _ _ h1
      refine ⟨ps', h2, by rw [h3]; simp, fun n hn => ?_⟩
      rw [h4 n (by simpa using hn)]
      by_cases hx : ∃ j ∈ is, j.rel = k ∧ j.pos = n
      · have : ∃ j ∈ i :: is, j.rel = k ∧ j.pos = n := by
          obtain ⟨j, hj, h⟩ := hx; exact ⟨j, by simp [hj], h⟩
        rw [if_pos hx, if_pos this]
      · rw [if_neg hx]
        by_cases hp : i.pos = n
        · rw [if_pos ⟨i, by simp, e, hp⟩, hp, List.getElem?_set_self (by omega)]
        · rw [List.getElem?_set_ne hp, if_neg]
          rintro ⟨j, hj, hj1, hj2⟩
          rcases List.mem_cons.1 hj with rfl | hj
          · exact hp hj2
          · exact hx ⟨j, hj, hj1, hj2⟩
    · have h1 : (deliver1 o L i)[k]? = some (r, ps) := by
        rw [deliver1_get, hL]; simp [e]
      obtain ⟨ps', h2, h3, h4⟩ := ih _ _ h1
      refine ⟨ps', h2, h3, fun n hn => ?_⟩
      rw [h4 n hn]
      have : (∃ j ∈ i :: is, j.rel = k ∧ j.pos = n) ↔ (∃ j ∈ is, j.rel = k ∧ j.pos = n) := by
        constructor
        · rintro ⟨j, hj, h⟩
          rcases List.mem_cons.1 hj with rfl | hj
          · exact absurd h.1 e
          · exact ⟨j, hj, h⟩
        · rintro ⟨j, hj, h⟩; exact ⟨j, by simp [hj], h⟩
      simp only [this]

theorem foldl_deliver_other (o : OsmObj) (L : List (Relation × List (Option OsmObj)))
    (is : List MemberInfo) (k : Nat) (h : ∀ i ∈ is, i.rel ≠ k) :
    (is.foldl (deliver1 o) L)[k]? = L[k]? := by
  induction is generalizing L with
  | nil => rfl
  | cons i is ih =>
    rw [List.foldl_cons, ih _ (fun j hj => h j (by simp [hj])), deliver1_get]
    have := h i (by simp)
    cases L[k]? <;> simp [this]

/-- The relations completed between two states. -/
def became (cfg : AsmCfg) (L L' : List (Relation × List (Option OsmObj))) : List AsmEvent :=
  ((L.zip L').filter fun q => decide (miss cfg q.1.1 q.1.2 ≠ 0 ∧ miss cfg q.2.1 q.2.2 = 0)).map
    fun q => .complete q.2.1 q.2.2

theorem became_self (cfg : AsmCfg) (L : List (Relation × List (Option OsmObj))) :
    became cfg L L = [] := by
  unfold became
  have : (L.zip L).filter (fun q => decide (miss cfg q.1.1 q.1.2 ≠ 0 ∧ miss cfg q.2.1 q.2.2 = 0)) = [] := by
    rw [List.filter_eq_nil_iff]
    intro q hq
    have : q.1 = q.2 := by
      rw [List.mem_iff_getElem?] at hq
      obtain ⟨n, hn⟩ := hq
      rw [List.getElem?_zip_eq_some] at hn
      have := hn.1.symm.trans hn.2
      simpa using this
    simp [this]
  rw [this]; rfl

theorem became_set (cfg : AsmCfg) (L L' : List (Relation × List (Option OsmObj))) (k : Nat)
    (x x1 y : Relation × List (Option OsmObj)) (hx : L[k]? = some x) (hy : L'[k]? = some y)
    (hm : miss cfg x.1 x.2 ≠ 0)
    (h0 : miss cfg x1.1 x1.2 = 0 → y = x1) :
    (became cfg L L').Perm
      ((if miss cfg x1.1 x1.2 = 0 then [.complete x1.1 x1.2] else []) ++
        became cfg (L.set k x1) L') := by
  have hlen : k < L.length := (List.getElem?_eq_some_iff.1 hx).1
  have hlen' : k < L'.length := (List.getElem?_eq_some_iff.1 hy).1
  have e1 : L = L.take k ++ x :: L.drop (k + 1) := by
    have := List.getElem?_eq_some_iff.1 hx
    rw [← this.2, ← List.drop_eq_getElem_cons, List.take_append_drop]
  have e2 : L' = L'.take k ++ y :: L'.drop (k + 1) := by
    have := List.getElem?_eq_some_iff.1 hy
    rw [← this.2, ← List.drop_eq_getElem_cons, List.take_append_drop]
  have e3 : L.set k x1 = L.take k ++ x1 :: L.drop (k + 1) := by
    rw [List.set_eq_take_append_cons_drop, if_pos hlen]
  have hl : (L.take k).length = (L'.take k).length := by simp; omega
  rw [e3]
  generalize L.take k = A at *
  generalize L.drop (k + 1) = B at *
  generalize L'.take k = A' at *
  generalize L'.drop (k + 1) = B' at *
  subst e1 e2
  unfold became
  rw [List.zip_append hl, List.zip_append hl, List.filter_append, List.filter_append,
    List.zip_cons_cons, List.zip_cons_cons, List.filter_cons, List.filter_cons]
  by_cases h : miss cfg x1.1 x1.2 = 0
  · have := h0 h
    subst this
    simp only [h, hm, ne_eq, not_false_eq_true, not_true_eq_false, decide_true, if_true, and_self,
      false_and, decide_false, List.map_append, List.map_cons]
    exact List.perm_middle
  · by_cases hy0 : miss cfg y.1 y.2 = 0 <;> simp [h, hm, hy0]

theorem eventsAll_perm (cfg : AsmCfg) (o : OsmObj) (L : List (Relation × List (Option OsmObj)))
    (is : List MemberInfo) (h : ∀ i ∈ is, Open cfg o L i) (hn : is.Pairwise Apart) :
    (eventsAll cfg o L is).Perm (became cfg L (is.foldl (deliver1 o) L)) := by
  induction is generalizing L with
  | nil => rw [List.foldl_nil, became_self]; simp [eventsAll]
  | cons i is ih =>
    rw [List.pairwise_cons] at hn
    have hop : ∀ j ∈ is, Open cfg o (deliver1 o L i) j :=
      fun j hj => open_deliver cfg o L i j (h j (by simp [hj])) (hn.1 j hj)
    have hi := ih (deliver1 o L i) hop hn.2
    obtain ⟨-, r, ps, m, hL, hm, hk, hp⟩ := h i (by simp)
    have hdel : deliver1 o L i = L.set i.rel (r, ps.set i.pos (some o)) := by
      unfold deliver1
      rw [List.modify_eq_set_getElem?, hL]; rfl
    have hget : (deliver1 o L i)[i.rel]? = some (r, ps.set i.pos (some o)) := by
      rw [deliver1_get, hL]; simp
    obtain ⟨ps', hy, -, -⟩ := foldl_deliver_get o (deliver1 o L i) is i.rel r _ hget
    have hmiss := miss_set cfg r ps i.pos m o hm hk hp
    have hb := became_set cfg L (is.foldl (deliver1 o) (deliver1 o L i)) i.rel (r, ps)
      (r, ps.set i.pos (some o)) (r, ps') hL hy (by simp only; omega) (by
        intro h0
        have hno : ∀ j ∈ is, j.rel ≠ i.rel := by
          intro j hj e
          obtain ⟨-, r2, ps2, m2, hL2, hm2, hk2, hp2⟩ := hop j hj
          rw [e, hget] at hL2
          simp only [Option.some.injEq, Prod.mk.injEq] at hL2
          obtain ⟨rfl, rfl⟩ := hL2
          exact (miss_zero_iff cfg r _).1 h0 _ m2 hm2 hk2 hp2
        rw [foldl_deliver_other o _ is i.rel hno, hget] at hy
        simpa using hy.symm)
    rw [List.foldl_cons]
    refine List.Perm.trans ?_ hb.symm
    simp only [eventsAll]
    have e : events1 cfg o L i =
        if miss cfg r (ps.set i.pos (some o)) = 0 then [.complete r (ps.set i.pos (some o))] else [] := by
      unfold events1; rw [hL]
    rw [e, ← hdel]
    exact List.Perm.append_left _ hi

/-! ### the entries for all relations -/

/-- Entries of type `t` of relation number `k` with members from number `n` on. -/
def infosOf (keep : Member → Bool) (t : ObjType) (k : Nat) : Nat → List Member → List MemberInfo
  | _, [] => []
  | n, m :: ms =>
    (if keep m ∧ memberKind m.type = some t then [⟨m.ref, k, n⟩] else []) ++
      infosOf keep t k (n + 1) ms

/-- Entries of all relations from number `k` on. -/
def allInfos (cfg : AsmCfg) (t : ObjType) : Nat → List Relation → List MemberInfo
  | _, [] => []
  | k, r :: rs => infosOf (cfg.keep r) t k 0 r.members ++ allInfos cfg t (k + 1) rs

theorem addMembers_eq (keep : Member → Bool) (rel n : Nat) (ms : List Member)
    (infos : ObjType → List MemberInfo) (i : RelInfo) :
    addMembers keep rel n ms infos i =
      (fun t => infos t ++ infosOf keep t rel n ms,
       { i with need := i.need + (ms.countP keep : Int) }) := by
  induction ms generalizing n infos i with
  | nil => simp [addMembers, infosOf]
  | cons m ms ih =>
    simp only [addMembers]
    by_cases h : keep m
    · rw [if_pos h, ih]
      congr 1
      · funext t
        by_cases ht : memberKind m.type = some t <;> simp [infosOf, h, ht]
      · simp only [RelInfo.needMember, List.countP_cons, h, if_true]
        congr 1; push_cast; omega
    · rw [if_neg h, ih]
      congr 1
      · funext t; simp [infosOf, h]
      · simp [h]

theorem countP_keep (cfg : AsmCfg) (r : Relation) :
    miss cfg r (r.members.map fun _ => none) = r.members.countP (cfg.keep r) := by
  unfold miss
  generalize cfg.keep r = k
  induction r.members with
  | nil => rfl
  | cons m ms ih => simp only [List.map_cons, List.zip_cons_cons, List.countP_cons, ih]; simp

/-- The state after adding relations. -/
def RelationsAdded (cfg : AsmCfg) (rels : List Relation) (s : Asm) : Prop :=
  s.rels = (rels.map fun r => (r, r.members.map fun _ => none)).map (slotOf cfg) ∧
  s.want = (Asm.new cfg).want ∧ ∀ t, s.infos t = allInfos cfg t 0 rels

theorem slotOf_fresh (cfg : AsmCfg) (r : Relation) :
    slotOf cfg (r, r.members.map fun _ => none) =
      { RelInfo.ofRelation r with need := (r.members.countP (cfg.keep r) : Int) } := by
  unfold slotOf
  rw [if_neg, countP_keep]
  · rfl
  · rintro ⟨h1, h2⟩
    simp only [countP_keep] at h2
    apply h1
    unfold wanted
    rw [List.filter_eq_nil_iff]
    rwa [List.countP_eq_zero] at h2

theorem allInfos_concat (cfg : AsmCfg) (t : ObjType) (k : Nat) (rs : List Relation) (r : Relation) :
    allInfos cfg t k (rs ++ [r]) =
      allInfos cfg t k rs ++ infosOf (cfg.keep r) t (k + rs.length) 0 r.members := by
  induction rs generalizing k with
  | nil => simp [allInfos]
  | cons x rs ih =>
    simp only [List.cons_append, allInfos, ih, List.length_cons, List.append_assoc]
    rw [show k + 1 + rs.length = k + (rs.length + 1) by omega]

theorem added_addRelation (cfg : AsmCfg) (rels : List Relation) (s : Asm) (r : Relation)
    (h : RelationsAdded cfg rels s) : RelationsAdded cfg (rels ++ [r]) (s.addRelation cfg r) := by
  obtain ⟨h1, h2, h3⟩ := h
  have hl : s.rels.length = rels.length := by rw [h1]; simp
  unfold Asm.addRelation
  simp only [addMembers_eq]
  refine ⟨?_, h2, fun t => ?_⟩
  · simp only [List.map_append, List.map_cons, List.map_nil, slotOf_fresh]
    rw [h1]
    congr 1
    simp [RelInfo.ofRelation]
  · simp only [h3 t, hl, allInfos_concat, Nat.zero_add]

theorem added_pass1 (cfg : AsmCfg) (rels : List Relation) (s : Asm) (calls : List Cb)
    (h : RelationsAdded cfg rels s) :
    RelationsAdded cfg (rels ++ asmRelations cfg calls) (s.pass1 cfg calls).1 := by
  induction calls generalizing s rels with
  | nil => simpa [Asm.pass1, asmRelations] using h
  | cons c cs ih =>
    unfold Asm.pass1 asmRelations
    split
    · simp_all
    · rename_i r cs' heq
      cases heq
      by_cases ha : cfg.accept r
      · simp only [ha, if_true]
        have := ih (rels ++ [r]) _ (added_addRelation cfg rels s r h)
        simpa using this
      · simp only [ha]
        exact ih rels s h
    · rename_i heq
      cases heq
      simpa using h
    · rename_i c' cs' h1 h2 heq
      cases heq
      split
      · rename_i heq'; exact absurd heq' (by simp)
      · rename_i r cs'' heq'
        cases heq'
        exact absurd rfl (h1 r)
      · rename_i cs'' heq'
        cases heq'
        exact absurd rfl h2
      · rename_i heq'
        cases heq'
        exact ih rels s h

theorem asm_added (cfg : AsmCfg) (calls : List Cb) (s : Asm) (h : Asm.AfterPass1 cfg calls s)
    (hend : (asmRelations cfg calls ≠ []) → Cb.after .relation ∈ calls) :
    s.rels = ((asmRelations cfg calls).map fun r => (r, r.members.map fun _ => none)).map (slotOf cfg) ∧
    s.want = (Asm.new cfg).want ∧
    ∀ t, (s.infos t).Perm (allInfos cfg t 0 (asmRelations cfg calls)) ∧
      (s.infos t).Pairwise (fun a b => a.id ≤ b.id) := by
  have hadd := added_pass1 cfg [] (Asm.new cfg) calls ⟨rfl, rfl, fun _ => rfl⟩
  rw [List.nil_append] at hadd
  obtain ⟨h1, h2, h3⟩ := hadd
  unfold Asm.AfterPass1 at h
  by_cases hb : ((Asm.new cfg).pass1 cfg calls).2
  · simp only [hb, if_true] at h
    obtain ⟨g1, g2, g3⟩ := h
    refine ⟨g1.trans h1, g2.trans h2, fun t => ⟨?_, (g3 t).2⟩⟩
    rw [← h3 t]; exact (g3 t).1
  · simp only [hb] at h
    subst h
    have : asmRelations cfg calls = [] := by
      by_contra hne
      have hmem := hend hne
      apply hb
      clear * - hmem
      generalize Asm.new cfg = s
      induction calls generalizing s with
      | nil => simp at hmem
      | cons c cs ih =>
        unfold Asm.pass1
        split
        · simp_all
        · rename_i r cs' heq
          cases heq
          exact ih (by simpa using hmem) _
        · rfl
        · rename_i c' cs' h1 h2 heq
          cases heq
          refine ih ?_ s
          rcases List.mem_cons.1 hmem with e | e
          · exact absurd e.symm h2
          · exact e
    refine ⟨h1, h2, fun t => ?_⟩
    rw [h3 t, this]
    exact ⟨List.Perm.refl _, List.Pairwise.nil⟩

theorem equalRange_eq (id : Int) (l : List MemberInfo) (h : l.Pairwise (fun a b => a.id ≤ b.id)) :
    equalRange id l = l.filter (fun i => i.id = id) := by
  unfold equalRange
  induction l with
  | nil => rfl
  | cons a l ih =>
    rw [List.pairwise_cons] at h
    have ih := ih h.2
    by_cases h1 : a.id < id
    · have : ¬ a.id = id := by omega
      simp only [List.dropWhile_cons, h1, decide_true, if_true, ih, List.filter_cons, this,
        decide_false]
      rfl
    · have hd : l.dropWhile (fun i => decide (i.id < id)) = l := by
        cases l with
        | nil => rfl
        | cons b l =>
          have := h.1 b (by simp)
          rw [List.dropWhile_cons, if_neg]; simp; omega
      rw [hd] at ih
      by_cases h2 : a.id = id
      · rw [List.dropWhile_cons, if_neg (by simp [h2]), List.takeWhile_cons, if_pos (by simp [h2]),
          List.filter_cons, if_pos (by simp [h2]), ih]
      · have h3 : id < a.id := by omega
        have hnil : l.filter (fun i => decide (i.id = id)) = [] := by
          rw [List.filter_eq_nil_iff]
          intro b hb
          have := h.1 b hb
          simp only [decide_eq_true_eq]; omega
        simp [h1, h2, h3, hnil]

theorem mem_infosOf (keep : Member → Bool) (t : ObjType) (k n : Nat) (ms : List Member)
    (i : MemberInfo) : i ∈ infosOf keep t k n ms ↔
      i.rel = k ∧ n ≤ i.pos ∧ ∃ m, ms[i.pos - n]? = some m ∧ keep m = true ∧
        memberKind m.type = some t ∧ i.id = m.ref := by
  induction ms generalizing n with
  | nil => simp [infosOf]
  | cons m ms ih =>
    simp only [infosOf, List.mem_append, ih]
    constructor
    · rintro (h | ⟨h1, h2, m', h3, h4⟩)
      · split at h
        · rename_i hk
          simp only [List.mem_singleton] at h
          subst h
          exact ⟨rfl, Nat.le_refl _, m, by simp, hk.1, hk.2, rfl⟩
        · simp at h
      · refine ⟨h1, by omega, m', ?_, h4⟩
        rw [show i.pos - n = (i.pos - (n + 1)) + 1 by omega]
        simpa using h3
    · rintro ⟨h1, h2, m', h3, h4, h5, h6⟩
      by_cases e : i.pos = n
      · left
        rw [e] at h3
        simp at h3
        subst h3
        rw [if_pos ⟨h4, h5⟩]
        cases i
        simp_all
      · right
        refine ⟨h1, by omega, m', ?_, h4, h5, h6⟩
        rw [show i.pos - n = (i.pos - (n + 1)) + 1 by omega] at h3
        simpa using h3

theorem mem_allInfos (cfg : AsmCfg) (t : ObjType) (k : Nat) (rs : List Relation) (i : MemberInfo) :
    i ∈ allInfos cfg t k rs ↔ k ≤ i.rel ∧ ∃ r m, rs[i.rel - k]? = some r ∧
      r.members[i.pos]? = some m ∧ cfg.keep r m = true ∧ memberKind m.type = some t ∧
      i.id = m.ref := by
  induction rs generalizing k with
  | nil => simp [allInfos]
  | cons r rs ih =>
    simp only [allInfos, List.mem_append, ih, mem_infosOf]
    constructor
    · rintro (⟨h1, -, m, h2, h3⟩ | ⟨h1, r', m, h2, h3⟩)
      · refine ⟨by omega, r, m, by simp [h1], by simpa using h2, h3⟩
      · refine ⟨by omega, r', m, ?_, h3⟩
        rw [show i.rel - k = (i.rel - (k + 1)) + 1 by omega]
        simpa using h2
    · rintro ⟨h1, r', m, h2, h3, h4⟩
      by_cases e : i.rel = k
      · left
        rw [e] at h2; simp at h2; subst h2
        exact ⟨e, Nat.zero_le _, m, by simpa using h3, h4⟩
      · right
        refine ⟨by omega, r', m, ?_, h3, h4⟩
        rw [show i.rel - k = (i.rel - (k + 1)) + 1 by omega] at h2
        simpa using h2

theorem infosOf_apart (keep : Member → Bool) (t : ObjType) (k n : Nat) (ms : List Member) :
    (infosOf keep t k n ms).Pairwise Apart := by
  induction ms generalizing n with
  | nil => simp [infosOf]
  | cons m ms ih =>
    simp only [infosOf]
    split
    · rw [List.singleton_append, List.pairwise_cons]
      refine ⟨fun j hj => ?_, ih (n + 1)⟩
      rw [mem_infosOf] at hj
      intro h
      simp only at h
      omega
    · simpa using ih (n + 1)

theorem allInfos_apart (cfg : AsmCfg) (t : ObjType) (k : Nat) (rs : List Relation) :
    (allInfos cfg t k rs).Pairwise Apart := by
  induction rs generalizing k with
  | nil => simp [allInfos]
  | cons r rs ih =>
    simp only [allInfos]
    rw [List.pairwise_append]
    refine ⟨infosOf_apart _ _ _ _ _, ih _, fun a ha b hb => ?_⟩
    rw [mem_infosOf] at ha
    rw [mem_allInfos] at hb
    intro h
    omega

end Osmium
