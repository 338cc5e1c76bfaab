import Verif.Strings.Model
/-
Helper lemmas about the string table.
-/
namespace Osmium

/-- Append a key if it is missing. -/
def addKey (ks : List String) (s : String) : List String := if s ∈ ks then ks else ks ++ [s]

def StringTable.keys (t : StringTable) : List String := t.ents.map StrEnt.str

theorem recordIn_keys (s : String) (size : Nat) (es : List StrEnt) :
    (recordIn s size es).1.map StrEnt.str = addKey (es.map StrEnt.str) s := by
  induction es with
  | nil => simp [recordIn, addKey]
  | cons e es ih =>
    unfold recordIn
    by_cases h : e.str = s
    · simp only [h, if_true]
      have : addKey ((e :: es).map StrEnt.str) s = (e :: es).map StrEnt.str := by
        simp [addKey, h]
      rw [this]
      split <;> simp [h]
    · simp only [h, if_false, List.map_cons, ih]
      unfold addKey
      have h' : ¬ s = e.str := fun e' => h e'.symm
      by_cases hm : s ∈ es.map StrEnt.str
      · rw [if_pos hm, if_pos (by simp only [List.mem_cons]; exact Or.inr hm)]
      · rw [if_neg hm, if_neg (by simp only [List.mem_cons, not_or]; exact ⟨h', hm⟩)]; simp

@[simp] theorem record_keys (t : StringTable) (s : String) :
    (t.record s).1.keys = addKey t.keys s := recordIn_keys s t.size t.ents

/-- Interim ids are assigned consecutively from `k+1`. -/
def Consecutive : Nat → List StrEnt → Prop
  | _, [] => True
  | k, e :: es => e.interim = k + 1 ∧ Consecutive (k + 1) es

/-- The invariant of the table as long as there are at most 65535 different strings. -/
structure StringTable.Inv (t : StringTable) : Prop where
  len : t.ents.length = t.size
  nodup : t.keys.Nodup
  ids : Consecutive 0 t.ents

theorem StringTable.inv_empty : StringTable.empty.Inv := ⟨rfl, by simp [keys, empty], trivial⟩

theorem addKey_nodup {ks : List String} (h : ks.Nodup) (s : String) : (addKey ks s).Nodup := by
  unfold addKey
  split
  · exact h
  · rename_i hs
    rw [List.nodup_append]
    exact ⟨h, by simp, by intro a ha b hb e; simp at hb; subst hb; subst e; exact hs ha⟩

theorem addKey_prefix (ks : List String) (s : String) : ks <+: addKey ks s := by
  unfold addKey; split
  · exact List.prefix_rfl
  · exact List.prefix_append _ _

theorem mem_addKey (ks : List String) (s : String) : s ∈ addKey ks s := by
  unfold addKey; split <;> simp_all

theorem recordIn_inv (s : String) (k size : Nat) (es : List StrEnt) (hlen : k + es.length = size)
    (hids : Consecutive k es) (hbound : k + (addKey (es.map StrEnt.str) s).length ≤ 65535) :
    Consecutive k (recordIn s size es).1 ∧
    k + (recordIn s size es).1.length = (recordIn s size es).2.1 ∧
    (recordIn s size es).2.2 = k + (addKey (es.map StrEnt.str) s).idxOf s + 1 := by
  induction es generalizing k with
  | nil =>
    simp [addKey] at hbound hlen
    simp only [recordIn, Consecutive, addKey]
    simp
    omega
  | cons e es ih =>
    obtain ⟨h1, h2⟩ := hids
    unfold recordIn
    by_cases h : e.str = s
    · simp only [h, if_true]
      have : addKey ((e :: es).map StrEnt.str) s = (e :: es).map StrEnt.str := by
        simp [addKey, h]
      rw [this]
      rw [if_neg (by omega : ¬ e.interim = 0)]
      simp only [Consecutive]
      refine ⟨⟨h1, h2⟩, by simpa using hlen, ?_⟩
      simp [h, h1]
    · simp only [h, if_false]
      have h' : ¬ s = e.str := fun e' => h e'.symm
      have hk : addKey ((e :: es).map StrEnt.str) s = e.str :: addKey (es.map StrEnt.str) s := by
        have a := recordIn_keys s size (e :: es)
        have b := recordIn_keys s size es
        rw [← a, ← b]; simp [recordIn, h]
      rw [hk] at hbound ⊢
      have := ih (k + 1) (by simp at hlen; omega) h2 (by simp at hbound; omega)
      obtain ⟨a, b, c⟩ := this
      refine ⟨⟨h1, a⟩, by simp; omega, ?_⟩
      rw [List.idxOf_cons, c]
      have hbe : (e.str == s) = false := by simp [h]
      rw [hbe]; simp; omega

theorem record_spec (t : StringTable) (s : String) (h : t.Inv)
    (hb : (addKey t.keys s).length ≤ 65535) :
    (t.record s).1.Inv ∧ (t.record s).2 = (addKey t.keys s).idxOf s + 1 := by
  have := recordIn_inv s 0 t.size t.ents (by simpa using h.len) h.ids
    (by rw [Nat.zero_add]; exact hb)
  obtain ⟨a, b, c⟩ := this
  refine ⟨⟨by simpa [StringTable.record] using b, ?_, a⟩, by rw [Nat.zero_add] at c; exact c⟩
  rw [record_keys]; exact addKey_nodup h.nodup s

/-- The interim id of a string, given the final key list. -/
def fid (K : List String) (s : String) : Nat := K.idxOf s + 1

theorem idxOf_prefix {ks K : List String} (h : ks <+: K) {s : String} (hs : s ∈ ks) :
    K.idxOf s = ks.idxOf s := by
  obtain ⟨r, rfl⟩ := h
  rw [List.idxOf_append]; simp [hs]

/-- Recording a string returns its position in the final list of keys. -/
theorem record_fid (t : StringTable) (s : String) (K : List String) (h : t.Inv)
    (hp : (t.record s).1.keys <+: K) (hK : K.length ≤ 65535) :
    (t.record s).1.Inv ∧ (t.record s).2 = fid K s ∧ s ∈ (t.record s).1.keys := by
  rw [record_keys] at hp ⊢
  have hl := hp.length_le
  have ⟨a, b⟩ := record_spec t s h (by omega)
  refine ⟨a, ?_, mem_addKey _ _⟩
  rw [b, fid, idxOf_prefix hp (mem_addKey _ _)]

theorem recordAll_keys (t : StringTable) (ss : List String) :
    (t.recordAll ss).1.keys = ss.foldl addKey t.keys := by
  induction ss generalizing t with
  | nil => rfl
  | cons s ss ih => simp only [StringTable.recordAll, List.foldl_cons]; rw [ih]; simp

theorem foldl_addKey_prefix (ss ks : List String) : ks <+: ss.foldl addKey ks := by
  induction ss generalizing ks with
  | nil => exact List.prefix_rfl
  | cons s ss ih => exact (addKey_prefix ks s).trans (ih _)

theorem foldl_addKey_nodup (ss : List String) {ks : List String} (h : ks.Nodup) :
    (ss.foldl addKey ks).Nodup := by
  induction ss generalizing ks with
  | nil => exact h
  | cons s ss ih => exact ih (addKey_nodup h s)

theorem mem_foldl_addKey (ss ks : List String) (s : String) :
    s ∈ ss.foldl addKey ks ↔ s ∈ ks ∨ s ∈ ss := by
  induction ss generalizing ks with
  | nil => simp
  | cons a ss ih =>
    rw [List.foldl_cons, ih]
    unfold addKey
    split <;> simp <;> grind

theorem recordAll_fid (t : StringTable) (ss : List String) (K : List String) (h : t.Inv)
    (hp : (t.recordAll ss).1.keys <+: K) (hK : K.length ≤ 65535) :
    (t.recordAll ss).1.Inv ∧ (t.recordAll ss).2 = ss.map (fid K) := by
  induction ss generalizing t with
  | nil => exact ⟨h, rfl⟩
  | cons s ss ih =>
    simp only [StringTable.recordAll] at hp ⊢
    have hp1 : (t.record s).1.keys <+: K := by
      refine List.IsPrefix.trans ?_ hp
      rw [recordAll_keys]; exact foldl_addKey_prefix _ _
    have ⟨a, b, _⟩ := record_fid t s K h hp1 hK
    have ⟨c, d⟩ := ih _ a hp
    exact ⟨c, by simp [b, d]⟩

theorem fillMap_length (n : Nat) (es : List StrEnt) (m : List Nat) :
    (fillMap n es m).length = m.length := by
  induction es generalizing n m with
  | nil => rfl
  | cons e es ih => simp [fillMap, ih]

theorem fillMap_not_mem (n : Nat) (es : List StrEnt) (m : List Nat) (i : Nat)
    (h : i ∉ es.map StrEnt.interim) : (fillMap n es m)[i]? = m[i]? := by
  induction es generalizing n m with
  | nil => rfl
  | cons e es ih =>
    simp only [List.map_cons, List.mem_cons, not_or] at h
    simp only [fillMap]
    rw [ih _ _ h.2, List.getElem?_set_ne (fun e' => h.1 e'.symm)]

theorem fillMap_get (n : Nat) (es : List StrEnt) (m : List Nat) (i : Nat) (e : StrEnt)
    (hnd : (es.map StrEnt.interim).Nodup) (he : es[i]? = some e) (hlt : e.interim < m.length)
    (hb : n + es.length ≤ 65535) : (fillMap n es m)[e.interim]? = some (n + i + 1) := by
  induction es generalizing n m i with
  | nil => simp at he
  | cons a es ih =>
    simp only [List.map_cons, List.nodup_cons, List.length_cons] at hnd hb
    simp only [fillMap]
    cases i with
    | zero =>
      simp at he; subst he
      rw [fillMap_not_mem _ _ _ _ hnd.1, List.getElem?_set_self hlt]
      congr 1; omega
    | succ i =>
      simp at he
      rw [ih (n + 1) _ i hnd.2 he (by simpa using hlt) (by omega)]
      congr 1; omega

theorem consecutive_get (k : Nat) (es : List StrEnt) (h : Consecutive k es) (i : Nat) (e : StrEnt)
    (he : es[i]? = some e) : e.interim = k + i + 1 := by
  induction es generalizing k i with
  | nil => simp at he
  | cons a es ih =>
    cases i with
    | zero => simp at he; subst he; exact h.1
    | succ i => simp at he; have := ih (k+1) h.2 i he; omega

theorem consecutive_interims (k : Nat) (es : List StrEnt) (h : Consecutive k es) :
    es.map StrEnt.interim = List.range' (k + 1) es.length := by
  induction es generalizing k with
  | nil => rfl
  | cons e es ih => simp [List.range'_succ, h.1, ih _ h.2]

/-- The stored table for a table in good state: the empty string followed by a permutation of the
recorded strings, and the interim id of each is mapped to its position. -/
theorem store_spec (cs : CountSort) (t : StringTable) (h : t.Inv) (hb : t.keys.length ≤ 65535) :
    ∃ S : List String, (t.store cs).1 = "" :: S ∧ S.Perm t.keys ∧
      ∀ s ∈ t.keys, (t.store cs).2.mapId (fid t.keys s) = some (S.idxOf s + 1) := by
  refine ⟨(cs.sort t.ents).map StrEnt.str, rfl, (cs.perm t.ents).map _, ?_⟩
  intro s hs
  -- the entry of s
  have hi : t.keys.idxOf s < t.ents.length := by
    have := List.idxOf_lt_length_iff.2 hs; simpa [StringTable.keys] using this
  obtain ⟨e, he⟩ : ∃ e, t.ents[t.keys.idxOf s]? = some e := ⟨_, List.getElem?_eq_getElem hi⟩
  have hint := consecutive_get 0 _ h.ids _ _ he
  have hstr : e.str = s := by
    have h1 : t.keys[t.keys.idxOf s]? = some s := by
      rw [List.getElem?_eq_getElem (by simpa [StringTable.keys] using hi)]; simp
    have h2 : t.keys[t.keys.idxOf s]? = some e.str := by
      unfold StringTable.keys at he ⊢
      rw [List.getElem?_map, he]; rfl
    rw [h1] at h2; simpa using h2.symm
  -- its position in the sorted table
  have hmem : e ∈ cs.sort t.ents := (cs.perm t.ents).mem_iff.2 (List.mem_of_getElem? he)
  obtain ⟨j, hj⟩ := List.getElem?_of_mem hmem
  have hnd : ((cs.sort t.ents).map StrEnt.interim).Nodup := by
    rw [((cs.perm t.ents).map StrEnt.interim).nodup_iff, consecutive_interims 0 _ h.ids]
    exact List.nodup_range'
  have hnds : ((cs.sort t.ents).map StrEnt.str).Nodup := by
    rw [((cs.perm t.ents).map StrEnt.str).nodup_iff]; exact h.nodup
  have hlen := (cs.perm t.ents).length_eq
  have hke : t.keys.length = t.ents.length := by simp [StringTable.keys]
  have hl := h.len
  have key := fillMap_get 0 (cs.sort t.ents) (List.replicate (t.size + 1) 0) j e hnd hj
    (by simp; omega) (by omega)
  have hpos : ((cs.sort t.ents).map StrEnt.str).idxOf s = j := by
    have hjl : j < (cs.sort t.ents).length := (List.getElem?_eq_some_iff.1 hj).1
    have e1 : ((cs.sort t.ents).map StrEnt.str)[j]'(by simpa using hjl) = s := by
      have := (List.getElem?_eq_some_iff.1 hj).2
      simp [this, hstr]
    rw [← e1]
    exact hnds.idxOf_getElem j _
  simp only [StringTable.store, StringTable.mapId, fid, hpos]
  rw [show t.keys.idxOf s + 1 = e.interim by omega, key]
  congr 1; omega

end Osmium
