import Verif.Storage.Usage
import Verif.Storage.MmapProps
import Mathlib.Tactic.NormNum

/-
C120: what `used_memory` of the storages says, after any history of `set` calls.  `(idSet ops).card` is the number of
different ids for which a value was set.
-/
namespace Osmium

open Osmium.Spec

theorem idSet_card_le {V : Type} {ops : List (Nat × V)} {n : Nat} (h : ∀ o ∈ ops, o.1 < n) :
    (idSet ops).card ≤ n := by
  have hs : idSet ops ⊆ Finset.range n := by
    intro id hid
    simp only [idSet, List.mem_toFinset, List.mem_map] at hid
    obtain ⟨o, ho, rfl⟩ := hid
    exact Finset.mem_range.2 (h o ho)
  simpa using Finset.card_le_card hs

theorem idSet_card_le_length {V : Type} (ops : List (Nat × V)) : (idSet ops).card ≤ ops.length := by
  simpa [idSet] using List.toFinset_card_le (ops.map Prod.fst)

theorem lastVal_isSome {V : Type} (ops : List (Nat × V)) (id : Nat) : (lastVal ops id).isSome ↔ id ∈ idSet ops := by
  induction ops using List.reverseRecOn with
  | nil => simp [lastVal, idSet]
  | append_singleton ops o ih =>
    rw [lastVal_concat]
    simp only [idSet, List.mem_toFinset, List.mem_map, List.mem_append, List.mem_singleton] at ih ⊢
    split
    · rename_i h
      simp only [Option.isSome_some, true_iff]
      exact ⟨o, .inr rfl, h⟩
    · rename_i h
      rw [ih]
      constructor
      · rintro ⟨p, hp, rfl⟩; exact ⟨p, .inl hp, rfl⟩
      · rintro ⟨p, hp | rfl, hpe⟩
        · exact ⟨p, hp, hpe⟩
        · exact absurd hpe h

/-- **C120.**  A `FixedArray` reports exactly the bytes of its block, which are enough for the values set. -/
theorem fixedArray_used {V : Type} (sz max : Nat) (hz : 0 < sz) (hmax : sz * max < 2 ^ 64)
    (ops : List (Nat × V)) (h : Below max ops) :
    ∃ b, (fixedArray V sz max).fill ops = .ok b ∧ fixedArrayUsed sz max b = b.bytes ∧
      sz * (idSet ops).card ≤ fixedArrayUsed sz max b := by
  obtain ⟨b, hb, h1, -⟩ := fixedArray_fill sz max hz hmax ops h
  have e : fixedArrayUsed sz max b = sz * max := by
    unfold fixedArrayUsed
    rw [Nat.mul_comm, wrapN64_of_lt hmax]
  exact ⟨b, hb, by rw [e, h1], by rw [e]; exact Nat.mul_le_mul_left _ (idSet_card_le h)⟩

/-- **C120.**  An anonymous mapping reports exactly the bytes mapped, which are enough for the values set, and not more
than for the largest id and the increment. -/
theorem mmapAnon_used {V : Type} (zero : V) (sz inc : Nat) (os : Nat → Bool) (hz : 0 < sz) (hn0 : 0 < inc)
    (hi : sz * inc < 2 ^ 64) (ops : List (Nat × V)) (h : Granted sz inc os ops) :
    ∃ m, (mmapAnon V zero sz inc os).fill ops = .ok m ∧ mmapAnonUsed sz m = m.bytes ∧
      sz * (idSet ops).card ≤ mmapAnonUsed sz m ∧
      ∀ n, (∀ o ∈ ops, o.1 ≤ n) → mmapAnonUsed sz m ≤ sz * (n + inc) := by
  obtain ⟨m, hm, h1, h2, -⟩ := mmapAnon_fill zero sz inc os hz hn0 hi ops h
  have hle : ∀ n, (∀ o ∈ ops, o.1 ≤ n) → m.size ≤ n + inc := by
    intro n hn
    rw [h1]
    exact mappedSize_le inc inc n _ (by omega) fun id hid => by
      obtain ⟨o, ho, rfl⟩ := List.mem_map.1 hid; exact hn o ho
  have hlt : m.size * sz < 2 ^ 64 := by
    rw [Nat.mul_comm, h1]
    clear h1 h2 hm hle m
    induction ops using List.reverseRecOn with
    | nil => simpa [mappedSize] using hi
    | append_singleton ops o ih =>
      rw [List.map_append, List.map_cons, List.map_nil, mappedSize_concat]
      split
      · exact ih fun o' ho' => h o' (by simp [ho'])
      · exact (h o (by simp)).1
  have e : mmapAnonUsed sz m = sz * m.size := by
    unfold mmapAnonUsed
    rw [wrapN64_of_lt hlt, Nat.mul_comm]
  refine ⟨m, hm, by rw [e, h2], ?_, fun n hn => by rw [e]; exact Nat.mul_le_mul_left _ (hle n hn)⟩
  rw [e]
  refine Nat.mul_le_mul_left _ (idSet_card_le fun o ho => ?_)
  rw [h1]
  exact mappedSize_mem inc inc _ _ hn0 (List.mem_map_of_mem ho)

theorem mmapFile_bytes {V : Type} (sz inc : Nat) (os : Nat → Bool) (init : Backing V) (hz : 0 < sz)
    (hn0 : 0 < inc) (hi : sz < 2 ^ 64) (ops : List (Nat × V)) (h : Granted sz inc os ops) :
    ∃ m, (mmapFile V sz inc os init).fill ops = .ok m ∧
      (m.size = mappedSize inc 1 (ops.map Prod.fst) ∧ m.mapped = sz * m.size ∧ sz * m.size < 2 ^ 64 ∧
        m.file.bytes = max init.bytes (sz * m.size)) := by
  refine fill_induct (mmapFile V sz inc os init) (Granted sz inc os) (fun ops (m : FileMap V) =>
    m.size = mappedSize inc 1 (ops.map Prod.fst) ∧ m.mapped = sz * m.size ∧ sz * m.size < 2 ^ 64 ∧
        m.file.bytes = max init.bytes (sz * m.size)) ?_ ?_ ?_ ops h
  · intro ops o h o' ho'; exact h o' (by simp [ho'])
  · have hw : wrapN64 (sz * 1) = sz * 1 := wrapN64_of_lt (by simpa using hi)
    refine ⟨rfl, hw, ?_, ?_⟩
    · show sz * 1 < 2 ^ 64
      omega
    show (init.atLeast (wrapN64 (sz * 1))).bytes = max init.bytes (sz * 1)
    rw [hw]
    unfold Backing.atLeast
    split
    · show sz * 1 = _; omega
    · omega
  · intro ops o m hok ⟨h1, h2, hb, h3⟩
    obtain ⟨ho1, ho2⟩ := hok o (by simp)
    simp only [mmapFile]
    by_cases hs : m.size ≤ o.1
    · have hm1 : wrapN64 (o.1 + inc) = o.1 + inc := wrapN64_of_lt (mul_le_of_pos hz ho1)
      have hm2 : wrapN64 (sz * (o.1 + inc)) = sz * (o.1 + inc) := wrapN64_of_lt ho1
      have hle : sz * m.size ≤ sz * (o.1 + inc) := Nat.mul_le_mul_left _ (by omega)
      simp only [if_pos hs, hm1, hm2, ho2, if_true]
      rw [if_pos ((fits_iff hz).2 (by omega))]
      refine ⟨_, rfl, ?_, rfl, ho1, ?_⟩
      · simp only [List.map_append, List.map_cons, List.map_nil]
        rw [mappedSize_concat, if_neg (by omega)]
      · show (m.file.atLeast (sz * (o.1 + inc))).bytes = _
        unfold Backing.atLeast
        split <;> simp only <;> omega
    · simp only [if_neg hs]
      rw [if_pos (by rw [h2]; exact (fits_iff hz).2 (by omega))]
      refine ⟨_, rfl, ?_, h2, hb, h3⟩
      simp only [List.map_append, List.map_cons, List.map_nil]
      rw [mappedSize_concat, if_pos (by omega)]
      exact h1

/-- **C120.**  A mapping of a file reports exactly the bytes mapped, which are enough for the values set.  These are the
bytes of the file, unless the file that was opened was larger.  -/
theorem mmapFile_used_partial {V : Type} (sz inc : Nat) (os : Nat → Bool) (init : Backing V) (hz : 0 < sz)
    (hn0 : 0 < inc) (hi : sz < 2 ^ 64) (ops : List (Nat × V)) (h : Granted sz inc os ops) :
    ∃ m, (mmapFile V sz inc os init).fill ops = .ok m ∧ mmapFileUsed sz m = m.mapped ∧
      sz * (idSet ops).card ≤ mmapFileUsed sz m ∧ m.file.bytes = max init.bytes (mmapFileUsed sz m) := by
  obtain ⟨m, hm, h1, h2, h3, h4⟩ := mmapFile_bytes sz inc os init hz hn0 hi ops h
  have e : mmapFileUsed sz m = sz * m.size := by
    unfold mmapFileUsed
    rw [Nat.mul_comm, wrapN64_of_lt h3]
  refine ⟨m, hm, by rw [e, h2], ?_, by rw [e, h4]⟩
  rw [e]
  refine Nat.mul_le_mul_left _ (idSet_card_le fun o ho => ?_)
  rw [h1]
  exact mappedSize_mem inc 1 _ _ hn0 (List.mem_map_of_mem ho)

/-- **C120 fails** if the file that was opened is larger than what is mapped: less is reported than is used on disk. -/
theorem mmapFile_used_less {V : Type} (sz inc : Nat) (os : Nat → Bool) (init : Backing V) (hi : sz < 2 ^ 64)
    (hl : sz < init.bytes) :
    mmapFileUsed sz (mmapFile V sz inc os init).empty = sz ∧
    mmapFileUsed sz (mmapFile V sz inc os init).empty < (mmapFile V sz inc os init).empty.file.bytes := by
  have hu : mmapFileUsed sz (mmapFile V sz inc os init).empty = sz := by
    show wrapN64 (1 * sz) = sz
    rw [Nat.one_mul, wrapN64_of_lt hi]
  refine ⟨hu, ?_⟩
  rw [hu]
  show sz < (init.atLeast (wrapN64 (sz * 1))).bytes
  rw [Nat.mul_one, wrapN64_of_lt hi]
  unfold Backing.atLeast
  split
  · omega
  · exact hl

/-- **C120.**  A `Vector` reports exactly the bytes of all its items: one for each call, which is one for each id if ids
are increasing, as they have to be. -/
theorem vector_used {V : Type} (dflt : V) (item : Nat) (ops : List (Nat × V)) (h : ops.length * item < 2 ^ 64) :
    ∃ items, (vectorStore V dflt).fill ops = .ok items ∧ vectorUsed item items = item * ops.length ∧
      item * (idSet ops).card ≤ vectorUsed item items ∧
      (Increasing ops → vectorUsed item items = item * (idSet ops).card) := by
  refine ⟨_, vectorStore_fill dflt ops, ?_⟩
  have e : vectorUsed item (ops.map fun o => (wrapS64 (o.1 : Int), o.2)) = item * ops.length := by
    unfold vectorUsed
    rw [List.length_map, wrapN64_of_lt h, Nat.mul_comm]
  refine ⟨e, by rw [e]; exact Nat.mul_le_mul_left _ (idSet_card_le_length ops), fun hinc => ?_⟩
  have hnd : (ops.map Prod.fst).Nodup := hinc.1.imp (fun h => Nat.ne_of_lt h)
  rw [e, idSet, List.toFinset_card_of_nodup hnd, List.length_map]

theorem Table.nonempty_eq {V : Type} (t : Table V) (s : Finset Nat) (h : ∀ i, (t.cell i).isSome ↔ i ∈ s)
    (hb : ∀ i ∈ s, i < t.size) : t.nonempty = s.card := by
  unfold Table.nonempty
  rw [List.countP_eq_length_filter]
  have hnd : ((List.range t.size).filter fun i => (t.cell i).isSome).Nodup := List.nodup_range.filter _
  rw [← List.toFinset_card_of_nodup hnd]
  congr 1
  ext i
  simp only [List.mem_toFinset, List.mem_filter, List.mem_range, h]
  exact ⟨fun hi => hi.2, fun hi => ⟨hb i hi, hi⟩⟩

/-- **C120.**  A `SparseTable` reports one bit for each item and the bytes of the values set, each id counting once. -/
theorem sparseTable_used {V : Type} (dflt : V) (grow sz : Nat) (hg : 0 < grow)
    (ops : List (Nat × V)) (hr : RoomToGrow grow ops) :
    ∃ t, (sparseTable V dflt grow).fill ops = .ok t ∧
      (t.size / 8 + (idSet ops).card * sz < 2 ^ 64 →
        sparseTableUsed sz t = (sparseTable V dflt grow).size t / 8 + sz * (idSet ops).card) := by
  obtain ⟨t, ht, h1, h2⟩ := sparseTable_fill dflt grow hg ops hr
  refine ⟨t, ht, fun hlt => ?_⟩
  have hn : t.nonempty = (idSet ops).card := by
    refine t.nonempty_eq _ (fun i => by rw [h1, lastVal_isSome]) fun i hi => ?_
    simp only [idSet, List.mem_toFinset, List.mem_map] at hi
    obtain ⟨o, ho, rfl⟩ := hi
    exact h2 o ho
  unfold sparseTableUsed
  rw [hn, wrapN64_of_lt (n := (idSet ops).card * sz) (by omega), wrapN64_of_lt hlt, Nat.mul_comm sz]
  rfl

/-- **C120 fails** for `StlMap`: it reports that it uses no memory, whatever it contains. -/
theorem stlMap_used_wrong {V : Type} (ops : List (Nat × V)) :
    ∃ m, (stlMap V).fill ops = .ok m ∧ stlMapUsed m = 0 ∧ (stlMap V).size m = (idSet ops).card := by
  obtain ⟨m, hm, hs⟩ := stlMap_size ops
  exact ⟨m, hm, rfl, hs⟩

/-- Three calls for two ids. -/
example : (idSet [(3, 'a'), (700, 'b'), (3, 'c')]).card = 2 := by decide

/-- The hypotheses of `fixedArray_used`. -/
example : Below 1000 [(3, 'a'), (700, 'b'), (3, 'c')] ∧ 8 * 1000 < 2 ^ 64 := by
  constructor
  · intro o ho; simp only [List.mem_cons, List.not_mem_nil, or_false] at ho
    rcases ho with rfl | rfl | rfl <;> norm_num
  · norm_num

/-- The hypotheses of `mmapAnon_used` and `mmapFile_used_partial`. -/
example : Granted 8 10485760 (fun b => b ≤ 1000000000) [(3, 'a'), (70000000, 'b'), (3, 'c')] := by
  intro o ho; simp only [List.mem_cons, List.not_mem_nil, or_false] at ho
  rcases ho with rfl | rfl | rfl <;> norm_num

/-- The table after these calls: 10700 bits and two values of eight bytes. -/
example : ((sparseTable Char 'z' 10000).fill [(3, 'a'), (10700, 'b'), (3, 'c')]).toOption.map
    (fun t => (sparseTable Char 'z' 10000).size t) = some 20700 := by
  have : wrapN64 20700 = 20700 := wrapN64_of_lt (by norm_num)
  simp [IdStore.fill, sparseTable, Table.put, Table.resize, this, bind, Except.bind, Except.toOption, pure, Except.pure]

/-- The hypotheses of `sparseTable_used`. -/
example : RoomToGrow 10000 [(3, 'a'), (10700, 'b'), (3, 'c')] := by
  intro o ho; simp only [List.mem_cons, List.not_mem_nil, or_false] at ho
  rcases ho with rfl | rfl | rfl <;> norm_num

end Osmium
