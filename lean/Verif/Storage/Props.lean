import Verif.Storage.Spec
import Mathlib.Tactic.Linarith

/-
C28-C31: the storages by id return what was last set.
-/
namespace Osmium
open Spec

/-! ### Histories -/

theorem IdStore.fill_concat {S V : Type} (st : IdStore S V) (ops : List (Nat × V)) (o : Nat × V) :
    st.fill (ops ++ [o]) = st.fill ops >>= fun s => st.set s o.1 o.2 := by
  unfold IdStore.fill
  rw [List.foldlM_append]
  simp

/-- How a call failed. -/
def failure {α : Type} : Res α → Option Fail
  | .error f => some f
  | .ok _ => none

/-- Induction over histories. -/
theorem fill_induct {S V : Type} (st : IdStore S V) (ok : List (Nat × V) → Prop)
    (P : List (Nat × V) → S → Prop)
    (hok : ∀ ops o, ok (ops ++ [o]) → ok ops)
    (h0 : P [] st.empty)
    (hs : ∀ ops o s, ok (ops ++ [o]) → P ops s →
      ∃ s', st.set s o.1 o.2 = .ok s' ∧ P (ops ++ [o]) s') :
    ∀ ops, ok ops → ∃ s, st.fill ops = .ok s ∧ P ops s := by
  intro ops
  induction ops using List.reverseRecOn with
  | nil => intro _; exact ⟨_, rfl, h0⟩
  | append_singleton ops o ih =>
    intro h
    obtain ⟨s, hf, hp⟩ := ih (hok _ _ h)
    obtain ⟨s', hs', hp'⟩ := hs ops o s h hp
    refine ⟨s', ?_, hp'⟩
    rw [st.fill_concat, hf]
    exact hs'

/-- The last value set for an id. -/
def lastVal {V : Type} (ops : List (Nat × V)) (id : Nat) : Option V :=
  ops.foldl (fun cur o => if o.1 = id then some o.2 else cur) none

@[simp] theorem lastVal_nil {V : Type} (id : Nat) : lastVal ([] : List (Nat × V)) id = none := rfl

theorem lastVal_concat {V : Type} (ops : List (Nat × V)) (o : Nat × V) (id : Nat) :
    lastVal (ops ++ [o]) id = if o.1 = id then some o.2 else lastVal ops id := by
  simp [lastVal]

theorem lastVal_of_lastSet {V : Type} {ops : List (Nat × V)} {id : Nat} {v : V}
    (h : LastSet ops id v) : lastVal ops id = some v := by
  obtain ⟨pre, post, rfl, hp⟩ := h
  induction post using List.reverseRecOn with
  | nil => simp [lastVal_concat]
  | append_singleton post o ih =>
    rw [show pre ++ (id, v) :: (post ++ [o]) = (pre ++ (id, v) :: post) ++ [o] by simp,
      lastVal_concat, if_neg (hp o (by simp))]
    exact ih fun o' ho' => hp o' (by simp [ho'])

theorem lastVal_of_neverSet {V : Type} {ops : List (Nat × V)} {id : Nat}
    (h : NeverSet ops id) : lastVal ops id = none := by
  induction ops using List.reverseRecOn with
  | nil => rfl
  | append_singleton ops o ih =>
    rw [lastVal_concat, if_neg (h o (by simp))]
    exact ih fun o' ho' => h o' (by simp [ho'])

theorem faithful_of {S V : Type} {st : IdStore S V} {ok : List (Nat × V) → Prop}
    {unset : Nat → Res V} (P : List (Nat × V) → S → Prop)
    (hf : ∀ ops, ok ops → ∃ s, st.fill ops = .ok s ∧ P ops s)
    (h1 : ∀ ops s id v, ok ops → P ops s → lastVal ops id = some v → (∃ o ∈ ops, o.1 = id) →
      st.get s id = .ok v)
    (h2 : ∀ ops s id, ok ops → P ops s → id < 2 ^ 64 → lastVal ops id = none →
      st.get s id = unset id) :
    Faithful st ok unset := by
  intro ops h
  obtain ⟨s, hs, hp⟩ := hf ops h
  refine ⟨s, hs, fun id v hl => h1 _ _ _ _ h hp (lastVal_of_lastSet hl) ?_,
    fun id hid hn => h2 _ _ _ h hp hid (lastVal_of_neverSet hn)⟩
  obtain ⟨pre, post, rfl, _⟩ := hl
  exact ⟨(id, v), by simp, rfl⟩

/-! ### C28: StlMap -/

theorem mapFind_put {V : Type} (id : Nat) (v : V) (m : List (Nat × V)) (j : Nat) :
    mapFind j (mapPut id v m) = if j = id then some v else mapFind j m := by
  induction m with
  | nil => simp [mapPut, mapFind]
  | cons p m ih =>
    obtain ⟨k, w⟩ := p
    simp only [mapPut]
    split
    · simp [mapFind]
    · split
      · rename_i h1 h2; subst h2; simp only [mapFind]; split <;> rfl
      · rename_i h1 h2
        simp only [mapFind, ih]
        split
        · rename_i h3; subst h3; rw [if_neg (fun h => h2 h.symm)]
        · rfl

theorem mapPut_keys {V : Type} (id : Nat) (v : V) (m : List (Nat × V)) (j : Nat) :
    j ∈ (mapPut id v m).map Prod.fst ↔ j = id ∨ j ∈ m.map Prod.fst := by
  induction m with
  | nil => simp [mapPut]
  | cons p m ih =>
    obtain ⟨k, w⟩ := p
    simp only [mapPut]
    split
    · simp
    · split
      · rename_i h1 h2; subst h2; simp
      · simp only [List.map_cons, List.mem_cons, ih]; tauto

theorem mapPut_sorted {V : Type} (id : Nat) (v : V) (m : List (Nat × V))
    (h : (m.map Prod.fst).Pairwise (· < ·)) :
    ((mapPut id v m).map Prod.fst).Pairwise (· < ·) := by
  induction m with
  | nil => simp [mapPut]
  | cons p m ih =>
    obtain ⟨k, w⟩ := p
    simp only [List.map_cons, List.pairwise_cons] at h
    simp only [mapPut]
    split
    · rename_i h1
      simp only [List.map_cons, List.pairwise_cons, List.mem_cons]
      refine ⟨fun a ha => ?_, h.1, h.2⟩
      rcases ha with rfl | ha
      · exact h1
      · exact lt_trans h1 (h.1 a ha)
    · split
      · rename_i h1 h2; subst h2
        simp only [List.map_cons, List.pairwise_cons]
        exact h
      · rename_i h1 h2
        simp only [List.map_cons, List.pairwise_cons]
        refine ⟨fun a ha => ?_, ih h.2⟩
        rcases (mapPut_keys _ _ _ _).1 ha with rfl | ha
        · omega
        · exact h.1 a ha

theorem stlMap_fill {V : Type} (ops : List (Nat × V)) :
    ∃ m, (stlMap V).fill ops = .ok m ∧ (∀ id, mapFind id m = lastVal ops id) ∧
      (m.map Prod.fst).Pairwise (· < ·) ∧ ∀ j, j ∈ m.map Prod.fst ↔ j ∈ ops.map Prod.fst := by
  refine fill_induct (stlMap V) (fun _ => True) (fun ops (m : List (Nat × V)) =>
    (∀ id, mapFind id m = lastVal ops id) ∧
    (m.map Prod.fst).Pairwise (· < ·) ∧ ∀ j, j ∈ m.map Prod.fst ↔ j ∈ ops.map Prod.fst)
    (fun _ _ _ => trivial) ?_ ?_ ops trivial
  · exact ⟨fun _ => rfl, List.Pairwise.nil, fun _ => Iff.rfl⟩
  · rintro ops o m - ⟨h1, h2, h3⟩
    refine ⟨mapPut o.1 o.2 m, rfl, fun id => ?_, mapPut_sorted _ _ _ h2, fun j => ?_⟩
    · rw [mapFind_put, lastVal_concat, h1]
      by_cases h : id = o.1
      · simp [h]
      · rw [if_neg h, if_neg (fun h' => h h'.symm)]
    · rw [mapPut_keys, h3]; simp only [List.map_append, List.map_cons, List.map_nil,
        List.mem_append, List.mem_singleton]; tauto

/-- **C28.**  After any sequence of `set` calls the map storage answers with the value last set;
for an id never set it throws `std::out_of_range`. -/
theorem stlMap_faithful (V : Type) :
    Faithful (stlMap V) (fun _ => True) (fun _ => .error (.exn "std::out_of_range")) := by
  refine faithful_of (fun ops (m : List (Nat × V)) => ∀ id, mapFind id m = lastVal ops id)
    (fun ops _ => ?_) ?_ ?_
  · obtain ⟨m, h, h', -⟩ := stlMap_fill ops
    exact ⟨m, h, h'⟩
  · intro ops m id v _ hp hl _
    simp only [stlMap]
    rw [hp, hl]
  · intro ops m id _ hp _ hl
    simp only [stlMap]
    rw [hp, hl]

/-- **C28.**  Its size is the number of different ids set. -/
theorem stlMap_size {V : Type} (ops : List (Nat × V)) :
    ∃ m, (stlMap V).fill ops = .ok m ∧ (stlMap V).size m = (idSet ops).card := by
  obtain ⟨m, hf, -, hs, hk⟩ := stlMap_fill ops
  refine ⟨m, hf, ?_⟩
  have hn : (m.map Prod.fst).Nodup := hs.imp (fun h => Nat.ne_of_lt h)
  have : (m.map Prod.fst).toFinset = idSet ops := by
    ext j; rw [idSet, List.mem_toFinset, List.mem_toFinset]; exact hk j
  rw [← this, List.toFinset_card_of_nodup hn]
  simp [stlMap]

example : ∃ s, (stlMap Nat).fill [(7, 1), (3, 2), (7, 3)] = .ok s ∧
    (stlMap Nat).get s 7 = .ok 3 ∧ (stlMap Nat).get s 3 = .ok 2 ∧
    (stlMap Nat).get s 4 = .error (.exn "std::out_of_range") ∧ (stlMap Nat).size s = 2 :=
  ⟨_, rfl, rfl, rfl, rfl, rfl⟩

/-! ### C29: SparseTable -/

/-- Histories whose ids leave room to grow. -/
def RoomToGrow {V : Type} (grow : Nat) (ops : List (Nat × V)) : Prop :=
  ∀ o ∈ ops, o.1 + grow < 2 ^ 64

theorem sparseTable_fill {V : Type} (dflt : V) (grow : Nat) (hg : 0 < grow)
    (ops : List (Nat × V)) (hr : RoomToGrow grow ops) :
    ∃ t, (sparseTable V dflt grow).fill ops = .ok t ∧
      ((∀ id, t.cell id = lastVal ops id) ∧ (∀ o ∈ ops, o.1 < t.size)) := by
  refine fill_induct (sparseTable V dflt grow) (RoomToGrow grow) (fun ops (t : Table V) =>
    (∀ id, t.cell id = lastVal ops id) ∧ (∀ o ∈ ops, o.1 < t.size)) ?_ ?_ ?_ ops hr
  · intro ops o h o' ho'; exact h o' (by simp [ho'])
  · exact ⟨fun _ => rfl, by simp⟩
  · intro ops o t hok ⟨h1, h2⟩
    have ho := hok o (by simp)
    have hne : ∀ i, t.size ≤ i → lastVal ops i = none := by
      intro i hi
      refine lastVal_of_neverSet fun o' ho' h => ?_
      have := h2 o' ho'; omega
    have hcell : ∀ (f : Nat → Option V) , (∀ i, f i = lastVal ops i) →
        ∀ id, (if id = o.1 then some o.2 else f id) = lastVal (ops ++ [o]) id := by
      intro f hf id
      rw [lastVal_concat, hf]
      by_cases h : id = o.1
      · simp [h]
      · rw [if_neg h, if_neg (fun h' => h h'.symm)]
    show ∃ s', (if t.size ≤ o.1 then t.resize (wrapN64 (o.1 + grow)) else t).put o.1 o.2 =
      .ok s' ∧ _
    by_cases hs : t.size ≤ o.1
    · have hm : wrapN64 (o.1 + grow) = o.1 + grow := wrapN64_of_lt ho
      rw [if_pos hs, hm]
      unfold Table.put
      rw [if_pos (show o.1 < (t.resize (o.1 + grow)).size by show o.1 < o.1 + grow; omega)]
      refine ⟨_, rfl, hcell (t.resize (o.1 + grow)).cell (fun i => ?_), ?_⟩
      · simp only [Table.resize]
        split
        · exact h1 i
        · exact (hne i (by omega)).symm
      · intro o' ho'
        simp only [List.mem_append, List.mem_singleton] at ho'
        rcases ho' with ho' | rfl
        · have := h2 o' ho'; show o'.1 < o.1 + grow; omega
        · show o'.1 < o'.1 + grow; omega
    · rw [if_neg hs]
      simp only [Table.put]
      rw [if_pos (by omega)]
      refine ⟨_, rfl, hcell _ h1, ?_⟩
      intro o' ho'
      simp only [List.mem_append, List.mem_singleton] at ho'
      rcases ho' with ho' | rfl
      · exact h2 o' ho'
      · show o'.1 < t.size; omega

/-- **C29.**  As long as `id + grow_size` fits into 64 bits, the table storage answers with the
value last set, and with the undefined value for all other ids. -/
theorem sparseTable_faithful (V : Type) (dflt : V) (grow : Nat) (hg : 0 < grow) :
    Faithful (sparseTable V dflt grow) (RoomToGrow grow) (fun _ => .ok dflt) := by
  refine faithful_of (fun ops (t : Table V) => (∀ id, t.cell id = lastVal ops id) ∧
    (∀ o ∈ ops, o.1 < t.size)) (fun ops h => sparseTable_fill dflt grow hg ops h) ?_ ?_
  · rintro ops t id v _ ⟨h1, h2⟩ hl ⟨o, ho, rfl⟩
    have := h2 o ho
    simp only [sparseTable]
    rw [if_neg (by omega), h1, hl]; rfl
  · rintro ops t id _ ⟨h1, h2⟩ _ hl
    simp only [sparseTable]
    split
    · rfl
    · rw [h1, hl]; rfl

example : RoomToGrow 10 [(7, 1), (300, 2), (7, 3)] ∧
    [7, 300, 301, 1000].map (fun id =>
      ((sparseTable Nat 0 10).fill [(7, 1), (300, 2), (7, 3)]).bind
        (fun s => (sparseTable Nat 0 10).get s id)) = [.ok 3, .ok 2, .ok 0, .ok 0] :=
  ⟨by unfold RoomToGrow; decide, by decide +kernel⟩

/-- **C29**, the limits: a table that grows by nothing is written past its end, and an id within
the grow size of 2^64 makes the table shrink and is written past its end. -/
theorem sparseTable_overflow :
    failure ((sparseTable Nat 0 0).fill [(5, 1)]) = some .ub ∧
    failure ((sparseTable Nat 0 10000).fill [(18446744073709551615, 1)]) = some .ub := by
  decide +kernel

/-! ### C30: Vector -/

/-- The index found by the binary search splits the range. -/
theorem lowerBound_spec {V : Type} (items : List (Int × V)) (key : Int)
    (hs : items.Pairwise (fun a b => a.1 < b.1)) (first len : Nat)
    (hlen : first + len ≤ items.length)
    (hlo : ∀ i (h : i < items.length), i < first → items[i].1 < key)
    (hhi : ∀ i (h : i < items.length), first + len ≤ i → key ≤ items[i].1) :
    (∀ i (h : i < items.length), i < lowerBound items key first len → items[i].1 < key) ∧
    (∀ i (h : i < items.length), lowerBound items key first len ≤ i → key ≤ items[i].1) := by
  have hmono : ∀ i j (hi : i < items.length) (hj : j < items.length), i < j →
      items[i].1 < items[j].1 := fun i j hi hj hij => List.pairwise_iff_getElem.1 hs i j hi hj hij
  fun_induction lowerBound items key first len with
  | case1 first => exact ⟨hlo, fun i h hi => hhi i h (by omega)⟩
  | case2 first len h0 half hn =>
    exfalso
    have : items.length ≤ first + half := List.getElem?_eq_none_iff.1 hn
    have : half < len := by simp only [half]; omega
    omega
  | case3 first len h0 half it hn hlt ih =>
    obtain ⟨hb, hn'⟩ := List.getElem?_eq_some_iff.1 hn
    have hhalf : half < len := by simp only [half]; omega
    refine ih (by omega) ?_ ?_
    · intro i h hi
      by_cases e : i = first + half
      · subst e; rw [hn']; exact hlt
      · have := hmono i (first + half) h hb (by omega)
        rw [hn'] at this; omega
    · intro i h hi; exact hhi i h (by omega)
  | case4 first len h0 half it hn hlt ih =>
    obtain ⟨hb, hn'⟩ := List.getElem?_eq_some_iff.1 hn
    have hhalf : half < len := by simp only [half]; omega
    refine ih (by omega) hlo ?_
    intro i h hi
    by_cases e : i = first + half
    · subst e; rw [hn']; omega
    · have := hmono (first + half) i hb h (by omega)
      rw [hn'] at this; omega

/-- Histories filled in strictly increasing id order; the ids are positive `int64_t` values. -/
def Increasing {V : Type} (ops : List (Nat × V)) : Prop :=
  (ops.map Prod.fst).Pairwise (· < ·) ∧ ∀ o ∈ ops, o.1 < 2 ^ 63

theorem vectorStore_fill {V : Type} (dflt : V) (ops : List (Nat × V)) :
    (vectorStore V dflt).fill ops = .ok (ops.map fun o => (wrapS64 o.1, o.2)) := by
  induction ops using List.reverseRecOn with
  | nil => rfl
  | append_singleton ops o ih =>
    rw [IdStore.fill_concat, ih]
    simp [vectorStore, bind, Except.bind]

theorem lastVal_increasing {V : Type} {ops : List (Nat × V)} {o : Nat × V}
    (h : (ops.map Prod.fst).Pairwise (· < ·)) (ho : o ∈ ops) : lastVal ops o.1 = some o.2 := by
  obtain ⟨pre, post, rfl⟩ := List.append_of_mem ho
  refine lastVal_of_lastSet ⟨pre, post, rfl, fun o' ho' => ?_⟩
  simp only [List.map_append, List.map_cons, List.pairwise_append, List.pairwise_cons] at h
  have := h.2.1.1 o'.1 (List.mem_map_of_mem ho')
  omega

theorem vectorStore_get {V : Type} (dflt : V) (ops : List (Nat × V)) (h : Increasing ops)
    (id : Nat) (hid : id < 2 ^ 64) :
    (vectorStore V dflt).get (ops.map fun o => (wrapS64 o.1, o.2)) id =
      .ok ((lastVal ops id).getD dflt) := by
  obtain ⟨h1, h2⟩ := h
  have hw : ∀ o ∈ ops, wrapS64 (o.1 : Int) = o.1 := fun o ho =>
    wrapS64_of_in (by have := h2 o ho; unfold InS64; omega)
  have e : (ops.map fun o => (wrapS64 (o.1 : Int), o.2)) = ops.map fun o => ((o.1 : Int), o.2) :=
    List.map_congr_left fun o ho => by rw [hw o ho]
  rw [e]
  set items : List (Int × V) := ops.map fun o => ((o.1 : Int), o.2) with hitems
  have hs : items.Pairwise (fun a b => a.1 < b.1) := by
    rw [hitems, List.pairwise_map]
    rw [List.pairwise_map] at h1
    exact h1.imp (fun h => by simpa using h)
  obtain ⟨hlo, hhi⟩ := lowerBound_spec items (wrapS64 id) hs 0 items.length (by omega)
    (by intro i h hi; omega) (by intro i h hi; omega)
  simp only [vectorStore]
  generalize lowerBound items (wrapS64 id) 0 items.length = k at *
  have hkey : ∀ o ∈ ops, (wrapS64 (id : Int) = o.1 ↔ id = o.1) := by
    intro o ho
    have := h2 o ho
    unfold wrapS64; omega
  -- a stored id is at index `k`
  have hfound : ∀ o ∈ ops, o.1 = id → items[k]? = some ((o.1 : Int), o.2) := by
    intro o ho hoid
    obtain ⟨i, hi, rfl⟩ := List.getElem_of_mem ho
    have hi' : i < items.length := by simpa [hitems] using hi
    have hval : items[i] = ((ops[i].1 : Int), ops[i].2) := by simp [hitems]
    have hk : wrapS64 (id : Int) = items[i].1 := by
      rw [hval]; exact (hkey _ ho).2 hoid.symm
    have hki : k ≤ i := by
      by_contra hc
      have := hlo i hi' (by omega); omega
    have hik : i ≤ k := by
      by_contra hc
      have hk' : k < items.length := by omega
      have a := hhi k hk' (le_refl _)
      have b := List.pairwise_iff_getElem.1 hs k i hk' hi' (by omega)
      omega
    have : k = i := by omega
    subst this
    rw [List.getElem?_eq_getElem hi', hval]
  by_cases hex : ∃ o ∈ ops, o.1 = id
  · obtain ⟨o, ho, hoid⟩ := hex
    rw [hfound o ho hoid]
    have := (hkey o ho).2 hoid.symm
    simp only [this, ne_eq, not_true_eq_false, if_false]
    rw [← hoid, lastVal_increasing h1 ho]; rfl
  · rw [lastVal_of_neverSet (fun o ho h => hex ⟨o, ho, h⟩)]
    cases hk : items[k]? with
    | none => rfl
    | some it =>
      have hm : it ∈ items := List.mem_of_getElem? hk
      rw [hitems, List.mem_map] at hm
      obtain ⟨o, ho, rfl⟩ := hm
      have : ¬ ((o.1 : Int) = wrapS64 id) := fun h =>
        hex ⟨o, ho, ((hkey o ho).1 h.symm).symm⟩
      simp [this]

/-- **C30.**  Filled in increasing id order, the vector storage answers with the value set, and
with the undefined value for all other ids. -/
theorem vectorStore_faithful (V : Type) (dflt : V) :
    Faithful (vectorStore V dflt) Increasing (fun _ => .ok dflt) := by
  intro ops h
  refine ⟨_, vectorStore_fill dflt ops, fun id v hl => ?_, fun id hid hn => ?_⟩
  · have hid : id < 2 ^ 64 := by
      obtain ⟨pre, post, rfl, _⟩ := hl
      have := h.2 (id, v) (by simp)
      simp only at this; omega
    rw [vectorStore_get dflt ops h id hid, lastVal_of_lastSet hl]; rfl
  · rw [vectorStore_get dflt ops h id hid, lastVal_of_neverSet hn]; rfl

example : ∃ s, (vectorStore Nat 0).fill [(2, 1), (5, 2), (9, 3)] = .ok s ∧
    Increasing [(2, 1), (5, 2), (9, 3)] ∧
    (vectorStore Nat 0).get s 5 = .ok 2 ∧ (vectorStore Nat 0).get s 9 = .ok 3 ∧
    (vectorStore Nat 0).get s 4 = .ok 0 ∧ (vectorStore Nat 0).get s 10 = .ok 0 :=
  ⟨_, rfl, by unfold Increasing; decide, by decide +kernel, by decide +kernel,
    by decide +kernel, by decide +kernel⟩

/-- **C30**, the limits: filled out of order a value set is not found, and of two values set for
the same id the first one is returned, not the last. -/
theorem vectorStore_out_of_order :
    ((vectorStore Nat 0).fill [(5, 1), (7, 2), (3, 4)]).bind
      (fun s => (vectorStore Nat 0).get s 3) = .ok 0 ∧
    ((vectorStore Nat 0).fill [(5, 1), (5, 2)]).bind
      (fun s => (vectorStore Nat 0).get s 5) = .ok 1 := by
  decide +kernel

end Osmium
