import Verif.Strings.Lemmas
import Verif.Common.Text
/-
Properties C11 (delta encoding), C12 and C13 (string table).
-/
namespace Osmium

namespace Spec
/-- Running sums: what a reader of delta encoded values computes. -/
def runningSums (acc : Int) : List Int → List Int
  | [] => []
  | d :: ds => (acc + d) :: runningSums (acc + d) ds
end Spec
open Spec

/-! ### C11 -/

/-- **C11**: if encoding a sequence does not overflow, the running sums of the deltas are exactly
the sequence. -/
theorem delta_lossless (xs : List Int) (v : Int) (ds : List Int) (h : deltaSeq v xs = some ds) :
    runningSums v ds = xs := by
  induction xs generalizing v ds with
  | nil => simp [deltaSeq] at h; subst h; rfl
  | cons x xs ih =>
    simp only [deltaSeq, deltaUpdate, bind, Option.bind_eq_some_iff, pure] at h
    obtain ⟨⟨d, v'⟩, ⟨d', hd, e⟩, ds', hds, e2⟩ := h
    simp only [Option.some.injEq, Prod.mk.injEq] at e e2
    obtain ⟨rfl, rfl⟩ := e
    subst e2
    obtain ⟨_, rfl⟩ := chk64_eq_some.1 hd
    simp only [runningSums]
    have : v + (x - v) = x := by omega
    rw [this, ih _ _ hds]

/-- **C11** (no undefined behaviour): values below 2^62 in absolute value never overflow.  (All
values fed to the deltas by the PBF writer are 32-bit quantities or object ids.) -/
theorem delta_no_overflow (xs : List Int) (v : Int)
    (hv : -4611686018427387904 ≤ v ∧ v ≤ 4611686018427387903)
    (h : ∀ x ∈ xs, -4611686018427387904 ≤ x ∧ x ≤ 4611686018427387903) :
    ∃ ds, deltaSeq v xs = some ds := by
  induction xs generalizing v with
  | nil => exact ⟨[], rfl⟩
  | cons x xs ih =>
    have hx := h x (by simp)
    obtain ⟨ds, e⟩ := ih x hx (fun y hy => h y (by simp [hy]))
    refine ⟨(x - v) :: ds, ?_⟩
    have : chk64 (x - v) = some (x - v) := by rw [chk64_eq_some]; unfold InS64; omega
    simp [deltaSeq, deltaUpdate, this, e]

/-- C11: the restriction is necessary, two 64-bit ids can be too far apart. -/
theorem delta_overflow : deltaSeq 0 [9223372036854775807, -2] = none := by decide

/-- **C11** (unsigned): modulo 2^32 the running sums of the deltas are the sequence, for all
`uint32_t` values. -/
theorem delta_lossless_u32 (xs : List Int) (v : Int) (h : ∀ x ∈ xs, InU32 x) :
    (runningSums v (deltaSeqU32 v xs)).map wrapU32 = xs := by
  suffices H : ∀ (v w : Int), wrapU32 v = wrapU32 w →
      (runningSums w (deltaSeqU32 v xs)).map wrapU32 = xs from H v v rfl
  induction xs with
  | nil => intros; rfl
  | cons x xs ih =>
    intro v w hvw
    have hx := h x (by simp)
    have e : wrapU32 (w + wrapU32 (x - v)) = x := by
      unfold wrapU32 InU32 at *; omega
    simp only [deltaSeqU32, deltaUpdateU32, runningSums, List.map_cons, e]
    rw [ih (fun y hy => h y (by simp [hy])) x _ (by rw [e]; exact wrapU32_of_in hx)]

example : deltaSeq 0 [5, 7, -3] = some [5, 2, -10] ∧ deltaSeqU32 0 [5, 2] = [5, 4294967293] ∧
    runningSums 0 [5, 2, -10] = [5, 7, -3] := by decide

/-! ### C12 -/

/-- The strings recorded, each once, in the order of their first occurrence. -/
def distinctStrings (ss : List String) : List String := ss.foldl addKey []

theorem distinctStrings_spec (ss : List String) :
    (distinctStrings ss).Nodup ∧ ∀ s, s ∈ distinctStrings ss ↔ s ∈ ss :=
  ⟨foldl_addKey_nodup ss (by simp), fun s => by simp [distinctStrings, mem_foldl_addKey]⟩

/-- **C12**: record any sequence of strings with at most 65535 different ones, and store the
table.  Then the final id of the i-th recorded string is the index of exactly that string in
the stored table, and is not 0.  (That different strings have different ids follows: an index
holds only one string.) -/
theorem string_table_lookup (cs : CountSort) (ss : List String)
    (h : (distinctStrings ss).length ≤ 65535) (i : Nat) (s : String) (hi : ss[i]? = some s) :
    let rec_ := StringTable.empty.recordAll ss
    let st := rec_.1.store cs
    ∃ id fin, rec_.2[i]? = some id ∧ st.2.mapId id = some fin ∧ fin ≠ 0 ∧ st.1[fin]? = some s := by
  intro rec_ st
  have hk : rec_.1.keys = distinctStrings ss := recordAll_keys _ _
  have ⟨hinv, hids⟩ := recordAll_fid StringTable.empty ss (distinctStrings ss)
    StringTable.inv_empty (by rw [recordAll_keys]; exact List.prefix_rfl) h
  obtain ⟨S, h1, h2, h3⟩ := store_spec cs rec_.1 hinv (by rw [hk]; exact h)
  have hs : s ∈ rec_.1.keys := by
    rw [hk, (distinctStrings_spec ss).2]; exact List.mem_of_getElem? hi
  refine ⟨fid (distinctStrings ss) s, S.idxOf s + 1, ?_, ?_, by omega, ?_⟩
  · show (StringTable.empty.recordAll ss).2[i]? = _
    rw [hids, List.getElem?_map, hi]; rfl
  · rw [← hk]; exact h3 s hs
  · show (rec_.1.store cs).1[S.idxOf s + 1]? = _
    rw [h1, List.getElem?_cons_succ]
    have : S.idxOf s < S.length := List.idxOf_lt_length_iff.2 (h2.mem_iff.2 hs)
    rw [List.getElem?_eq_getElem this]; simp

/-- **C12** (interim ids): equal strings get equal interim ids, different strings different
ones. -/
theorem string_table_interim_ids (ss : List String)
    (h : (distinctStrings ss).length ≤ 65535) (i j : Nat) (hi : i < ss.length) (hj : j < ss.length) :
    (StringTable.empty.recordAll ss).2[i]? = (StringTable.empty.recordAll ss).2[j]? ↔
      ss[i] = ss[j] := by
  have ⟨_, hids⟩ := recordAll_fid StringTable.empty ss (distinctStrings ss)
    StringTable.inv_empty (by rw [recordAll_keys]; exact List.prefix_rfl) h
  rw [hids]
  simp only [List.getElem?_map, List.getElem?_eq_getElem hi, List.getElem?_eq_getElem hj,
    Option.map_some, Option.some.injEq, fid]
  have m := (distinctStrings_spec ss).2
  have hi' := (m ss[i]).2 (List.getElem_mem hi)
  have hj' := (m ss[j]).2 (List.getElem_mem hj)
  constructor
  · intro e
    have e : (distinctStrings ss).idxOf ss[i] = (distinctStrings ss).idxOf ss[j] := by omega
    have a : (distinctStrings ss)[(distinctStrings ss).idxOf ss[i]]'(List.idxOf_lt_length_iff.2 hi') = ss[i] := by simp
    have b : (distinctStrings ss)[(distinctStrings ss).idxOf ss[j]]'(List.idxOf_lt_length_iff.2 hj') = ss[j] := by simp
    rw [← a, ← b]; simp only [e]
  · intro e; rw [e]

theorem recordIn_new (s : String) (size : Nat) (es : List StrEnt) (h : s ∉ es.map StrEnt.str) :
    recordIn s size es = (es ++ [⟨s, 0, (size + 1) % 65536⟩], size + 1, (size + 1) % 65536) := by
  induction es with
  | nil => rfl
  | cons e es ih =>
    simp only [List.map_cons, List.mem_cons, not_or] at h
    have h1 : ¬ e.str = s := fun e' => h.1 e'.symm
    simp only [recordIn, h1, if_false, ih h.2, List.cons_append]

theorem recordAll_new (ss : List String) (t : StringTable) (hnd : ss.Nodup)
    (h : ∀ s ∈ ss, s ∉ t.keys) :
    (t.recordAll ss).2 = (List.range' (t.size + 1) ss.length).map (· % 65536) := by
  induction ss generalizing t with
  | nil => rfl
  | cons s ss ih =>
    have hn := recordIn_new s t.size t.ents (h s (by simp))
    simp only [StringTable.recordAll, List.length_cons, List.range'_succ, List.map_cons]
    rw [List.nodup_cons] at hnd
    rw [ih _ hnd.2]
    · simp [StringTable.record, hn]
    · intro x hx
      rw [record_keys]
      unfold addKey
      have := h x (by simp [hx])
      split
      · exact this
      · simp [this]; rintro rfl; exact hnd.1 hx

/-- C12 is false beyond 65535 different strings in one block: recording any 65537 different
strings gives the first and the last of them the same id. -/
theorem string_table_collision (ss : List String) (hnd : ss.Nodup) (hl : ss.length = 65537) :
    (StringTable.empty.recordAll ss).2[0]? = (StringTable.empty.recordAll ss).2[65536]? ∧
    ss[0]? ≠ ss[65536]? := by
  constructor
  · rw [recordAll_new ss _ hnd (by simp [StringTable.keys, StringTable.empty])]
    simp only [List.getElem?_map, hl]
    rw [List.getElem?_range' (by omega), List.getElem?_range' (by omega)]
    simp [StringTable.empty]
  · intro e
    rw [List.getElem?_eq_getElem (by omega), List.getElem?_eq_getElem (by omega)] at e
    simp only [Option.some.injEq] at e
    have := (List.getElem_inj hnd).1 e
    omega

/-- C12: and so, whatever the sorting, one of the two is resolved to the wrong string. -/
theorem string_table_corruption (cs : CountSort) (ss : List String) (hnd : ss.Nodup)
    (hl : ss.length = 65537) :
    let rec_ := StringTable.empty.recordAll ss
    let st := rec_.1.store cs
    ¬ ∀ (i : Nat) (s : String), ss[i]? = some s →
      ∃ id fin, rec_.2[i]? = some id ∧ st.2.mapId id = some fin ∧ st.1[fin]? = some s := by
  intro rec_ st hall
  have ⟨hc, hne⟩ := string_table_collision ss hnd hl
  obtain ⟨i1, f1, a1, b1, c1⟩ := hall 0 _ (List.getElem?_eq_getElem (by omega))
  obtain ⟨i2, f2, a2, b2, c2⟩ := hall 65536 _ (List.getElem?_eq_getElem (by omega))
  have : i1 = i2 := by
    have h1 : (StringTable.empty.recordAll ss).2[0]? = some i1 := a1
    have h2 : (StringTable.empty.recordAll ss).2[65536]? = some i2 := a2
    rw [← hc, h1] at h2; simpa using h2
  subst this
  rw [b1] at b2
  simp only [Option.some.injEq] at b2; subst b2
  rw [c1] at c2
  apply hne
  rw [List.getElem?_eq_getElem (by omega), List.getElem?_eq_getElem (by omega)]
  exact c2

/-! A concrete sorting: stable insertion by descending count. -/

/-- Insert before the first entry with a smaller or equal count. -/
def insertByCount (e : StrEnt) : List StrEnt → List StrEnt
  | [] => [e]
  | x :: xs => if x.count ≤ e.count then e :: x :: xs else x :: insertByCount e xs

theorem insertByCount_perm (e : StrEnt) (l : List StrEnt) : (insertByCount e l).Perm (e :: l) := by
  induction l with
  | nil => exact List.Perm.refl _
  | cons x xs ih =>
    unfold insertByCount; split
    · exact List.Perm.refl _
    · exact (ih.cons x).trans (List.Perm.swap e x xs)

theorem insertByCount_sorted (e : StrEnt) (l : List StrEnt)
    (h : l.Pairwise (fun a b => b.count ≤ a.count)) :
    (insertByCount e l).Pairwise (fun a b => b.count ≤ a.count) := by
  induction l with
  | nil => simp [insertByCount]
  | cons x xs ih =>
    rw [List.pairwise_cons] at h
    unfold insertByCount; split
    · rw [List.pairwise_cons]
      refine ⟨?_, List.pairwise_cons.2 h⟩
      intro b hb
      rcases List.mem_cons.1 hb with rfl | hb
      · assumption
      · have := h.1 b hb; omega
    · rw [List.pairwise_cons]
      refine ⟨?_, ih h.2⟩
      intro b hb
      rcases List.mem_cons.1 ((insertByCount_perm e xs).mem_iff.1 hb) with rfl | hb
      · omega
      · exact h.1 b hb

/-- An instance of the sorting (insertion sort). -/
def countSort : CountSort where
  sort l := l.foldr insertByCount []
  perm l := by
    induction l with
    | nil => exact List.Perm.refl _
    | cons e es ih => exact (insertByCount_perm e _).trans (ih.cons e)
  sorted l := by
    induction l with
    | nil => exact List.Pairwise.nil
    | cons e es ih => exact insertByCount_sorted e _ ih

/-- Non-vacuity of the collision: there are 65537 different strings. -/
example : ∃ ss : List String, ss.Nodup ∧ ss.length = 65537 := by
  refine ⟨(List.range 65537).map (fun n => String.ofList (Text.natDec n)), ?_, by simp⟩
  rw [List.Nodup, List.pairwise_map]
  refine List.Pairwise.imp ?_ List.nodup_range
  intro a b hab e
  have e := String.ofList_inj.1 e
  have ha := Text.digitsVal_natDec a [] (by intro c; simp)
  have hb := Text.digitsVal_natDec b [] (by intro c; simp)
  rw [e] at ha
  exact hab (ha.symm.trans hb)

example : (distinctStrings ["highway", "primary", "highway", "joto"]).length ≤ 65535 ∧
    (StringTable.empty.recordAll ["highway", "primary", "joto", "joto"]).2 = [1, 2, 3, 3] ∧
    ((StringTable.empty.recordAll ["highway", "primary", "joto", "joto"]).1.store countSort).1
      = ["", "joto", "highway", "primary"] := by decide

/-! ### C13 -/

theorem recordIn_counts (s : String) (size : Nat) (es : List StrEnt)
    (hint : ∀ e ∈ es, e.interim ≠ 0) (hnd : (es.map StrEnt.str).Nodup)
    (e' : StrEnt) (he : e' ∈ (recordIn s size es).1) :
    (e'.str ≠ s ∧ e' ∈ es) ∨
    (e'.str = s ∧ ((s ∉ es.map StrEnt.str ∧ e'.count = 0) ∨
      ∃ e ∈ es, e.str = s ∧ e'.count = (e.count + 1) % 65536)) := by
  induction es with
  | nil => simp [recordIn] at he; subst he; simp
  | cons a es ih =>
    rw [List.map_cons, List.nodup_cons] at hnd
    unfold recordIn at he
    by_cases h : a.str = s
    · simp only [h, if_true, if_neg (hint a (by simp))] at he
      rcases List.mem_cons.1 he with rfl | hm
      · right; exact ⟨rfl, Or.inr ⟨a, by simp, h, rfl⟩⟩
      · left
        refine ⟨fun h' => hnd.1 ?_, by simp [hm]⟩
        rw [h, ← h']; exact List.mem_map_of_mem hm
    · simp only [h, if_false] at he
      rcases List.mem_cons.1 he with rfl | hm
      · left; exact ⟨h, by simp⟩
      · rcases ih (fun e he => hint e (by simp [he])) hnd.2 hm with ⟨h1, h2⟩ | ⟨h1, h2⟩
        · left; exact ⟨h1, by simp [h2]⟩
        · right
          refine ⟨h1, ?_⟩
          rcases h2 with ⟨h2, h3⟩ | ⟨e, h2, h3⟩
          · left; refine ⟨?_, h3⟩
            simp only [List.map_cons, List.mem_cons, not_or]
            exact ⟨fun e => h e.symm, h2⟩
          · right; exact ⟨e, by simp [h2], h3⟩

/-- The counter of every entry is the number of repetitions, modulo 2^16. -/
def CountInv (ss : List String) (t : StringTable) : Prop :=
  ∀ e ∈ t.ents, 1 ≤ ss.count e.str ∧ e.count = (ss.count e.str - 1) % 65536

theorem record_countInv (t : StringTable) (ss : List String) (s : String) (hi : t.Inv)
    (hk : ∀ x, x ∈ t.keys ↔ x ∈ ss) (hint : ∀ e ∈ t.ents, e.interim ≠ 0)
    (hc : CountInv ss t) : CountInv (ss ++ [s]) (t.record s).1 := by
  intro e' he
  have hnd : (t.ents.map StrEnt.str).Nodup := hi.nodup
  rcases recordIn_counts s t.size t.ents hint hnd e' he with ⟨h1, h2⟩ | ⟨h1, h2⟩
  · have := hc e' h2
    have hne : s ≠ e'.str := fun e => h1 e.symm
    simp only [List.count_append, List.count_singleton, hne, beq_iff_eq, if_false, Nat.add_zero]
    exact this
  · rcases h2 with ⟨h2, h3⟩ | ⟨e, h2, h3, h4⟩
    · have : s ∉ ss := fun h => h2 ((hk s).2 h)
      simp [List.count_append, h1, h3, List.count_eq_zero.2 this]
    · have := hc e h2
      rw [h3] at this
      simp only [List.count_append, h1, h4, List.count_singleton_self]; omega

theorem interim_ne_zero (t : StringTable) (h : t.Inv) : ∀ e ∈ t.ents, e.interim ≠ 0 := by
  intro e he
  obtain ⟨i, hi⟩ := List.mem_iff_getElem?.1 he
  have := consecutive_get 0 t.ents h.ids i e hi
  omega

theorem recordAll_countInv (ss pre : List String) (t : StringTable) (hi : t.Inv)
    (hk : ∀ x, x ∈ t.keys ↔ x ∈ pre) (hc : CountInv pre t)
    (hb : (ss.foldl addKey t.keys).length ≤ 65535) :
    CountInv (pre ++ ss) (t.recordAll ss).1 := by
  induction ss generalizing t pre with
  | nil => simpa [StringTable.recordAll] using hc
  | cons s ss ih =>
    have hl := (foldl_addKey_prefix ss (addKey t.keys s)).length_le
    rw [List.foldl_cons] at hb
    have hi' := (record_spec t s hi (by omega)).1
    have := ih (pre ++ [s]) (t.record s).1 hi' ?_ (record_countInv t pre s hi hk
      (interim_ne_zero t hi) hc) (by rw [record_keys]; exact hb)
    · simpa [StringTable.recordAll] using this
    · intro x
      rw [record_keys]
      have := mem_foldl_addKey [s] t.keys x
      simp only [List.foldl_cons, List.foldl_nil] at this
      rw [this, hk]; simp

/-- **C13**: the stored table has the empty string at index 0, followed by every recorded string
exactly once, the more frequently recorded first (the number of times a string was recorded never
increases along the table). -/
theorem string_table_sorted (cs : CountSort) (ss : List String)
    (h : (distinctStrings ss).length ≤ 65535) (hocc : ∀ s, ss.count s ≤ 65536) :
    ∃ S : List String, ((StringTable.empty.recordAll ss).1.store cs).1 = "" :: S ∧
      S.Nodup ∧ (∀ s, s ∈ S ↔ s ∈ ss) ∧ S.Pairwise (fun a b => ss.count b ≤ ss.count a) := by
  have hk : (StringTable.empty.recordAll ss).1.keys = distinctStrings ss := recordAll_keys _ _
  have hc : CountInv ss (StringTable.empty.recordAll ss).1 := by
    have := recordAll_countInv ss [] StringTable.empty StringTable.inv_empty
      (by simp [StringTable.keys, StringTable.empty])
      (by intro e he; simp [StringTable.empty] at he) h
    simpa using this
  generalize (StringTable.empty.recordAll ss).1 = t at hk hc
  have hp : ((cs.sort t.ents).map StrEnt.str).Perm (distinctStrings ss) := by
    rw [← hk]; exact (cs.perm t.ents).map _
  refine ⟨(cs.sort t.ents).map StrEnt.str, rfl, hp.nodup_iff.2 (distinctStrings_spec ss).1,
    fun s => hp.mem_iff.trans ((distinctStrings_spec ss).2 s), ?_⟩
  rw [List.pairwise_map]
  refine List.Pairwise.imp_of_mem ?_ (cs.sorted t.ents)
  intro a b ha hb hab
  have h1 := hc a ((cs.perm _).mem_iff.1 ha)
  have h2 := hc b ((cs.perm _).mem_iff.1 hb)
  have o1 := hocc a.str
  have o2 := hocc b.str
  omega

example : ∀ s, ["a", "b", "b"].count s ≤ 65536 := by
  intro s
  have := List.count_le_length (l := ["a", "b", "b"]) (a := s)
  simp at this; omega

theorem recordAll_append (t : StringTable) (a b : List String) :
    (t.recordAll (a ++ b)).1 = ((t.recordAll a).1.recordAll b).1 := by
  induction a generalizing t with
  | nil => rfl
  | cons x xs ih => simp [StringTable.recordAll, ih]

/-- The counter of the first string has wrapped around to 0. -/
theorem not_sorted_aux (cs : CountSort) (n : Nat) (hn : n % 65536 = 0) :
    ((StringTable.empty.recordAll (List.replicate (n + 1) "a" ++ ["b", "b"])).1.store cs).1
      = ["", "b", "a"] := by
  have rep : ∀ n c, ((⟨[⟨"a", c, 1⟩], [], 1⟩ : StringTable).recordAll (List.replicate n "a")).1
      = ⟨[⟨"a", (c + n) % 65536, 1⟩], [], 1⟩ ∨ 65536 ≤ c := by
    intro n
    induction n with
    | zero =>
      intro c
      by_cases hc : 65536 ≤ c
      · exact Or.inr hc
      · left; simp [StringTable.recordAll]; omega
    | succ n ih =>
      intro c
      by_cases hc : 65536 ≤ c
      · exact Or.inr hc
      · left
        have := ih ((c + 1) % 65536)
        simp only [List.replicate_succ, StringTable.recordAll, StringTable.record, recordIn]
        simp only [if_true, if_neg (by decide : ¬ (1 = 0))]
        rcases this with h | h
        · rw [h]; simp; omega
        · omega
  have e : (StringTable.empty.recordAll (List.replicate (n + 1) "a" ++ ["b", "b"])).1 =
      ⟨[⟨"a", 0, 1⟩, ⟨"b", 1, 2⟩], [], 2⟩ := by
    rw [recordAll_append, List.replicate_succ]
    have h := rep n 0
    simp only [StringTable.recordAll, StringTable.record, StringTable.empty, recordIn] at h ⊢
    rcases h with h | h
    · rw [h, Nat.zero_add, hn]; decide
    · omega
  rw [e]
  have hp := cs.perm [⟨"a", 0, 1⟩, ⟨"b", 1, 2⟩]
  have hs := cs.sorted [⟨"a", 0, 1⟩, ⟨"b", 1, 2⟩]
  simp only [StringTable.store]
  generalize cs.sort [⟨"a", 0, 1⟩, ⟨"b", 1, 2⟩] = l at hp hs
  have hl := hp.length_eq
  match l, hl with
  | [x, y], _ =>
    have hx := hp.mem_iff (a := x)
    have hy := hp.mem_iff (a := y)
    have ha := hp.mem_iff (a := ⟨"a", 0, 1⟩)
    have hb := hp.mem_iff (a := ⟨"b", 1, 2⟩)
    simp at hx hy ha hb hs
    rcases hx with rfl | rfl <;> rcases hy with rfl | rfl <;> simp_all


/-- C13 fails for a string recorded more than 65536 times in a block (`uint16_t` counter): "a" is
recorded 65537 times and "b" twice, but "b" comes first, whatever the sorting. -/
theorem string_table_not_sorted (cs : CountSort) :
    ((StringTable.empty.recordAll (List.replicate 65537 "a" ++ ["b", "b"])).1.store cs).1
      = ["", "b", "a"] :=
  not_sorted_aux cs 65536 rfl

end Osmium
