import Verif.Storage.Props

/-
C31: the array and memory-mapped storages.
-/
namespace Osmium
open Spec

/-! ### C31: FixedArray, MmapAnon, MmapFile -/

/-- All ids are below the size of the array. -/
def Below {V : Type} (max : Nat) (ops : List (Nat × V)) : Prop := ∀ o ∈ ops, o.1 < max

theorem fits_iff {sz id n : Nat} (hz : 0 < sz) : sz * (id + 1) ≤ sz * n ↔ id < n := by
  rw [Nat.mul_le_mul_left_iff hz]; omega

theorem fixedArray_fill {V : Type} (sz max : Nat) (hz : 0 < sz) (hmax : sz * max < 2 ^ 64)
    (ops : List (Nat × V)) (h : Below max ops) :
    ∃ b, (fixedArray V sz max).fill ops = .ok b ∧
      (b.bytes = sz * max ∧ ∀ id, b.cell id = lastVal ops id) := by
  refine fill_induct (fixedArray V sz max) (Below max) (fun ops (b : Block V) =>
    b.bytes = sz * max ∧ ∀ id, b.cell id = lastVal ops id) ?_ ?_ ?_ ops h
  · intro ops o h o' ho'; exact h o' (by simp [ho'])
  · exact ⟨wrapN64_of_lt hmax, fun _ => rfl⟩
  · intro ops o b hok ⟨h1, h2⟩
    have ho := hok o (by simp)
    simp only [fixedArray]
    rw [if_pos (by rw [h1]; exact (fits_iff hz).2 ho)]
    refine ⟨_, rfl, h1, fun id => ?_⟩
    simp only
    rw [lastVal_concat, h2]
    by_cases h : id = o.1
    · simp [h]
    · rw [if_neg h, if_neg (fun h' => h h'.symm)]

/-- **C31.**  The fixed array of size `max` answers with the value last set; reading an id never
set or past the end is undefined. -/
theorem fixedArray_faithful (V : Type) (sz max : Nat) (hz : 0 < sz) (hmax : sz * max < 2 ^ 64) :
    Faithful (fixedArray V sz max) (Below max) (fun _ => .error .ub) := by
  refine faithful_of (fun ops (b : Block V) => b.bytes = sz * max ∧
    ∀ id, b.cell id = lastVal ops id) (fun ops h => fixedArray_fill sz max hz hmax ops h) ?_ ?_
  · rintro ops b id v hok ⟨h1, h2⟩ hl ⟨o, ho, rfl⟩
    simp only [fixedArray]
    rw [if_pos (by rw [h1]; exact (fits_iff hz).2 (hok o ho)), h2, hl]; rfl
  · rintro ops b id hok ⟨h1, h2⟩ _ hl
    simp only [fixedArray]
    rw [h2, hl]; split <;> rfl

/-- **C31.**  A history runs without undefined behaviour exactly if all ids are below the size
given to the constructor. -/
theorem fixedArray_bounds {V : Type} (sz max : Nat) (hz : 0 < sz) (hmax : sz * max < 2 ^ 64)
    (ops : List (Nat × V)) :
    (∃ b, (fixedArray V sz max).fill ops = .ok b) ↔ Below max ops := by
  constructor
  · induction ops using List.reverseRecOn with
    | nil => intro _ o ho; simp at ho
    | append_singleton ops o ih =>
      rintro ⟨b, hb⟩
      rw [IdStore.fill_concat] at hb
      cases hf : (fixedArray V sz max).fill ops with
      | error e => rw [hf] at hb; exact absurd hb (by simp [bind, Except.bind])
      | ok b0 =>
        have hall := ih ⟨b0, hf⟩
        obtain ⟨b1, hb1, hbytes, -⟩ := fixedArray_fill sz max hz hmax ops hall
        rw [hf] at hb hb1
        injection hb1 with hb1; subst hb1
        simp only [bind, Except.bind, fixedArray] at hb
        intro o' ho'
        simp only [List.mem_append, List.mem_singleton] at ho'
        rcases ho' with ho' | rfl
        · exact hall o' ho'
        · by_contra hc
          rw [if_neg (by rw [hbytes, fits_iff hz]; exact hc)] at hb
          exact absurd hb (by simp)
  · intro h
    obtain ⟨b, hb, -⟩ := fixedArray_fill sz max hz hmax ops h
    exact ⟨b, hb⟩

example : Below 4 [(2, 1), (0, 2), (2, 3)] ∧
    [2, 0, 1, 4].map (fun id => ((fixedArray Nat 8 4).fill [(2, 1), (0, 2), (2, 3)]).bind
      (fun s => (fixedArray Nat 8 4).get s id)) = [.ok 3, .ok 2, .error .ub, .error .ub] :=
  ⟨by unfold Below; decide, by decide +kernel⟩

/-- Histories whose mappings fit into 64 bits and are granted by the system. -/
def Granted {V : Type} (sz inc : Nat) (os : Nat → Bool) (ops : List (Nat × V)) : Prop :=
  ∀ o ∈ ops, sz * (o.1 + inc) < 2 ^ 64 ∧ os (sz * (o.1 + inc)) = true

theorem mappedSize_concat (inc init : Nat) (ids : List Nat) (id : Nat) :
    mappedSize inc init (ids ++ [id]) =
      if id < mappedSize inc init ids then mappedSize inc init ids else id + inc := by
  induction ids generalizing init with
  | nil => by_cases h : id < init <;> simp [mappedSize, h]
  | cons i ids ih =>
    simp only [List.cons_append, mappedSize, ih]
    split <;> simp_all

theorem mappedSize_ge (inc init : Nat) (ids : List Nat) : init ≤ mappedSize inc init ids := by
  induction ids using List.reverseRecOn with
  | nil => simp [mappedSize]
  | append_singleton ids id ih => rw [mappedSize_concat]; split <;> omega

/-- All ids set so far are mapped. -/
theorem mappedSize_mem (inc init : Nat) (ids : List Nat) (id : Nat) (hn0 : 0 < inc) (h : id ∈ ids) :
    id < mappedSize inc init ids := by
  induction ids using List.reverseRecOn with
  | nil => simp at h
  | append_singleton ids i ih =>
    rw [mappedSize_concat]
    simp only [List.mem_append, List.mem_singleton] at h
    rcases h with h | rfl
    · have := ih h; split <;> omega
    · split <;> omega

/-- At most one increment past the largest id is mapped. -/
theorem mappedSize_le (inc init n : Nat) (ids : List Nat) (hi : init ≤ n + inc)
    (h : ∀ id ∈ ids, id ≤ n) : mappedSize inc init ids ≤ n + inc := by
  induction ids using List.reverseRecOn with
  | nil => simpa [mappedSize] using hi
  | append_singleton ids i ih =>
    rw [mappedSize_concat]
    have := ih fun id hid => h id (by simp [hid])
    have := h i (by simp)
    split <;> omega

theorem mul_le_of_pos {sz n : Nat} (hz : 0 < sz) (h : sz * n < 2 ^ 64) : n < 2 ^ 64 :=
  lt_of_le_of_lt (Nat.le_mul_of_pos_left n hz) h

theorem mmapAnon_fill {V : Type} (zero : V) (sz inc : Nat) (os : Nat → Bool) (hz : 0 < sz) (hn0 : 0 < inc)
    (hi : sz * inc < 2 ^ 64) (ops : List (Nat × V)) (h : Granted sz inc os ops) :
    ∃ m, (mmapAnon V zero sz inc os).fill ops = .ok m ∧
      (m.size = mappedSize inc inc (ops.map Prod.fst) ∧ m.bytes = sz * m.size ∧
        ∀ id, m.cell id = (lastVal ops id).getD zero) := by
  refine fill_induct (mmapAnon V zero sz inc os) (Granted sz inc os) (fun ops (m : Mapping V) =>
    m.size = mappedSize inc inc (ops.map Prod.fst) ∧ m.bytes = sz * m.size ∧
        ∀ id, m.cell id = (lastVal ops id).getD zero) ?_ ?_ ?_ ops h
  · intro ops o h o' ho'; exact h o' (by simp [ho'])
  · refine ⟨rfl, ?_, fun _ => rfl⟩
    simp only [mmapAnon]
    exact wrapN64_of_lt hi
  · intro ops o m hok ⟨h1, h2, h3⟩
    obtain ⟨ho1, ho2⟩ := hok o (by simp)
    have hcell : ∀ (f : Nat → V), (∀ i, f i = (lastVal ops i).getD zero) →
        ∀ id, (if id = o.1 then o.2 else f id) = (lastVal (ops ++ [o]) id).getD zero := by
      intro f hf id
      rw [lastVal_concat, hf]
      by_cases h : id = o.1
      · simp [h]
      · rw [if_neg h, if_neg (fun h' => h h'.symm)]
    have hne : ∀ i, m.size ≤ i → lastVal ops i = none := by
      intro i hi
      refine lastVal_of_neverSet fun o' ho' h => ?_
      have := mappedSize_mem inc inc (ops.map Prod.fst) o'.1 hn0 (List.mem_map_of_mem ho')
      omega
    simp only [mmapAnon]
    by_cases hs : m.size ≤ o.1
    · have hm1 : wrapN64 (o.1 + inc) = o.1 + inc :=
        wrapN64_of_lt (mul_le_of_pos hz ho1)
      have hm2 : wrapN64 (sz * (o.1 + inc)) = sz * (o.1 + inc) :=
        wrapN64_of_lt ho1
      simp only [if_pos hs, hm1, hm2, ho2, if_true, Mapping.put]
      rw [if_pos ((fits_iff hz).2 (by omega))]
      refine ⟨_, rfl, ?_, rfl, hcell _ fun i => ?_⟩
      · simp only [List.map_append, List.map_cons, List.map_nil]
        rw [mappedSize_concat, if_neg (by omega)]
      · split
        · exact h3 i
        · rename_i hc
          rw [h2, fits_iff hz, fits_iff hz] at hc
          rw [hne i (by omega)]; rfl
    · simp only [if_neg hs, Mapping.put]
      rw [if_pos (by rw [h2]; exact (fits_iff hz).2 (by omega))]
      refine ⟨_, rfl, ?_, h2, hcell _ h3⟩
      simp only [List.map_append, List.map_cons, List.map_nil]
      rw [mappedSize_concat, if_pos (by omega)]
      exact h1

/-- **C31.**  The anonymous mapping answers with the value last set; an id never set reads as the
all-zero value if it is mapped, and is undefined behaviour otherwise. -/
theorem mmapAnon_faithful {V : Type} (zero : V) (sz inc : Nat) (os : Nat → Bool) (hz : 0 < sz) (hn0 : 0 < inc)
    (hi : sz * inc < 2 ^ 64) (ops : List (Nat × V)) (h : Granted sz inc os ops) :
    ∃ s, (mmapAnon V zero sz inc os).fill ops = .ok s ∧
      (∀ id v, LastSet ops id v → (mmapAnon V zero sz inc os).get s id = .ok v) ∧
      (∀ id, NeverSet ops id → (mmapAnon V zero sz inc os).get s id =
        if id < mappedSize inc inc (ops.map Prod.fst) then .ok zero else .error .ub) ∧
      (mmapAnon V zero sz inc os).size s = mappedSize inc inc (ops.map Prod.fst) := by
  obtain ⟨m, hf, h1, h2, h3⟩ := mmapAnon_fill zero sz inc os hz hn0 hi ops h
  refine ⟨m, hf, fun id v hl => ?_, fun id hn => ?_, h1⟩
  · have hmem : id < m.size := by
      obtain ⟨pre, post, rfl, -⟩ := hl
      rw [h1]; exact mappedSize_mem _ _ _ _ hn0 (by simp)
    simp only [mmapAnon, Mapping.read]
    rw [if_pos (by rw [h2]; exact (fits_iff hz).2 hmem), h3, lastVal_of_lastSet hl]; rfl
  · simp only [mmapAnon, Mapping.read]
    rw [h2, h3, lastVal_of_neverSet hn]
    by_cases hm : id < m.size
    · rw [if_pos ((fits_iff hz).2 hm), if_pos (h1 ▸ hm)]; rfl
    · rw [if_neg (fun h => hm ((fits_iff hz).1 h)), if_neg (h1 ▸ hm)]

/-- **C31.**  If the system refuses a mapping the caller gets `std::bad_alloc`. -/
theorem mmapAnon_refused {V : Type} (zero : V) (sz inc : Nat) (os : Nat → Bool) (hz : 0 < sz) (hn0 : 0 < inc)
    (hi : sz * inc < 2 ^ 64) (ops : List (Nat × V)) (h : Granted sz inc os ops)
    (id : Nat) (v : V) (hid : mappedSize inc inc (ops.map Prod.fst) ≤ id)
    (h64 : sz * (id + inc) < 2 ^ 64) (hno : os (sz * (id + inc)) = false) :
    (mmapAnon V zero sz inc os).fill (ops ++ [(id, v)]) = .error (.exn "std::bad_alloc") := by
  obtain ⟨m, hf, h1, h2, h3⟩ := mmapAnon_fill zero sz inc os hz hn0 hi ops h
  rw [IdStore.fill_concat, hf]
  have hm1 : wrapN64 (id + inc) = id + inc :=
    wrapN64_of_lt (mul_le_of_pos hz h64)
  have hm2 : wrapN64 (sz * (id + inc)) = sz * (id + inc) :=
    wrapN64_of_lt h64
  simp only [bind, Except.bind, mmapAnon]
  rw [if_pos (by omega), hm1, hm2, hno]; rfl

theorem Backing.atLeast_cell {V : Type} (f : Backing V) (n : Nat) :
    (f.atLeast n).cell = f.cell := by unfold Backing.atLeast; split <;> rfl

theorem Backing.atLeast_bytes {V : Type} (f : Backing V) (n : Nat) :
    n ≤ (f.atLeast n).bytes := by unfold Backing.atLeast; split <;> simp_all

theorem mmapFile_empty_cell {V : Type} (sz inc : Nat) (os : Nat → Bool) (init : Backing V) :
    ((mmapFile V sz inc os init).empty).file.cell = init.cell := by
  show (init.atLeast (wrapN64 (sz * 1))).cell = init.cell
  exact Backing.atLeast_cell _ _

theorem mmapFile_fill {V : Type} (sz inc : Nat) (os : Nat → Bool) (init : Backing V) (hz : 0 < sz) (hn0 : 0 < inc)
    (hi : sz < 2 ^ 64) (ops : List (Nat × V)) (h : Granted sz inc os ops) :
    ∃ m, (mmapFile V sz inc os init).fill ops = .ok m ∧
      (m.size = mappedSize inc 1 (ops.map Prod.fst) ∧ m.mapped = sz * m.size ∧
        m.mapped ≤ m.file.bytes ∧
        ∀ id, m.file.cell id = (lastVal ops id).getD (init.cell id)) := by
  refine fill_induct (mmapFile V sz inc os init) (Granted sz inc os) (fun ops (m : FileMap V) =>
    m.size = mappedSize inc 1 (ops.map Prod.fst) ∧ m.mapped = sz * m.size ∧
        m.mapped ≤ m.file.bytes ∧
        ∀ id, m.file.cell id = (lastVal ops id).getD (init.cell id)) ?_ ?_ ?_ ops h
  · intro ops o h o' ho'; exact h o' (by simp [ho'])
  · refine ⟨rfl, ?_, ?_, fun _ => ?_⟩
    · exact wrapN64_of_lt (by simpa using hi)
    · exact Backing.atLeast_bytes _ _
    · rw [mmapFile_empty_cell]; simp
  · intro ops o m hok ⟨h1, h2, hb, h3⟩
    obtain ⟨ho1, ho2⟩ := hok o (by simp)
    have hcell : ∀ (f : Nat → V), (∀ i, f i = (lastVal ops i).getD (init.cell i)) →
        ∀ id, (if id = o.1 then o.2 else f id) =
          (lastVal (ops ++ [o]) id).getD (init.cell id) := by
      intro f hf id
      rw [lastVal_concat, hf]
      by_cases h : id = o.1
      · simp [h]
      · rw [if_neg h, if_neg (fun h' => h h'.symm)]
    simp only [mmapFile]
    by_cases hs : m.size ≤ o.1
    · have hm1 : wrapN64 (o.1 + inc) = o.1 + inc :=
        wrapN64_of_lt (mul_le_of_pos hz ho1)
      have hm2 : wrapN64 (sz * (o.1 + inc)) = sz * (o.1 + inc) :=
        wrapN64_of_lt ho1
      simp only [if_pos hs, hm1, hm2, ho2, if_true]
      rw [if_pos ((fits_iff hz).2 (by omega))]
      refine ⟨_, rfl, ?_, rfl, ?_, hcell _ fun i => ?_⟩
      · simp only [List.map_append, List.map_cons, List.map_nil]
        rw [mappedSize_concat, if_neg (by omega)]
      · exact Backing.atLeast_bytes _ _
      · rw [Backing.atLeast_cell]; exact h3 i
    · simp only [if_neg hs]
      rw [if_pos (by rw [h2]; exact (fits_iff hz).2 (by omega))]
      refine ⟨_, rfl, ?_, h2, hb, hcell _ h3⟩
      simp only [List.map_append, List.map_cons, List.map_nil]
      rw [mappedSize_concat, if_pos (by omega)]
      exact h1

/-- **C31.**  The file mapping answers with the value last set; an id never set reads as what the
file contained when it was opened if it is mapped, and is undefined behaviour otherwise. -/
theorem mmapFile_faithful {V : Type} (sz inc : Nat) (os : Nat → Bool) (init : Backing V)
    (hz : 0 < sz) (hn0 : 0 < inc) (hi : sz < 2 ^ 64) (ops : List (Nat × V)) (h : Granted sz inc os ops) :
    ∃ s, (mmapFile V sz inc os init).fill ops = .ok s ∧
      (∀ id v, LastSet ops id v → (mmapFile V sz inc os init).get s id = .ok v) ∧
      (∀ id, NeverSet ops id → (mmapFile V sz inc os init).get s id =
        if id < mappedSize inc 1 (ops.map Prod.fst) then .ok (init.cell id) else .error .ub) ∧
      (mmapFile V sz inc os init).size s = mappedSize inc 1 (ops.map Prod.fst) := by
  obtain ⟨m, hf, h1, h2, -, h3⟩ := mmapFile_fill sz inc os init hz hn0 hi ops h
  refine ⟨m, hf, fun id v hl => ?_, fun id hn => ?_, h1⟩
  · have hmem : id < m.size := by
      obtain ⟨pre, post, rfl, -⟩ := hl
      rw [h1]; exact mappedSize_mem _ _ _ _ hn0 (by simp)
    simp only [mmapFile]
    rw [if_pos (by rw [h2]; exact (fits_iff hz).2 hmem), h3, lastVal_of_lastSet hl]; rfl
  · simp only [mmapFile]
    rw [h2, h3, lastVal_of_neverSet hn]
    by_cases hm : id < m.size
    · rw [if_pos ((fits_iff hz).2 hm), if_pos (h1 ▸ hm)]; rfl
    · rw [if_neg (fun h => hm ((fits_iff hz).1 h)), if_neg (h1 ▸ hm)]

/-- **C31.**  The file keeps the values: opening it again later finds, for every id, the value
last set in the earlier session. -/
theorem mmapFile_persistent {V : Type} (sz inc : Nat) (os : Nat → Bool) (init : Backing V)
    (hz : 0 < sz) (hn0 : 0 < inc) (hi : sz < 2 ^ 64) (ops : List (Nat × V)) (h : Granted sz inc os ops) :
    ∃ s, (mmapFile V sz inc os init).fill ops = .ok s ∧
      ∀ ops', Granted sz inc os ops' → ∃ s', (mmapFile V sz inc os s.file).fill ops' = .ok s' ∧
        ∀ id v, LastSet ops id v → NeverSet ops' id →
          id < mappedSize inc 1 (ops'.map Prod.fst) →
          (mmapFile V sz inc os s.file).get s' id = .ok v := by
  obtain ⟨m, hf, -, -, -, h3⟩ := mmapFile_fill sz inc os init hz hn0 hi ops h
  refine ⟨m, hf, fun ops' h' => ?_⟩
  obtain ⟨s', hs', -, hn', -⟩ := mmapFile_faithful sz inc os m.file hz hn0 hi ops' h'
  refine ⟨s', hs', fun id v hl hn hm => ?_⟩
  rw [hn' id hn, if_pos hm, h3, lastVal_of_lastSet hl]; rfl

example : Granted 8 10485760 (fun _ => true) [(7, 1), (20000000, 2), (7, 3)] ∧
    mappedSize 10485760 10485760 [7, 20000000, 7] = 30485760 := by
  refine ⟨?_, by decide +kernel⟩
  unfold Granted; decide +kernel

/-- **C31**, the limits: in a fresh mapping an id never set reads as position zero rather than as
undefined, in a fresh file mapping id 1 is not mapped at all; and for ids so large that the length
of the mapping overflows, a system that grants the (then short) mapping is written out of
bounds. -/
theorem mmap_limits :
    (mmapAnon Nat 0 8 sizeIncrement (fun _ => true)).get (mmapAnon Nat 0 8 sizeIncrement (fun _ => true)).empty 5 = .ok 0 ∧
    (mmapFile Nat 8 sizeIncrement (fun _ => true) ⟨0, fun _ => 0⟩).get
      (mmapFile Nat 8 sizeIncrement (fun _ => true) ⟨0, fun _ => 0⟩).empty 1 = .error .ub ∧
    failure ((mmapAnon Nat 0 8 sizeIncrement (fun _ => true)).fill [(2305843009213693952, 1)]) = some .ub := by
  refine ⟨by decide +kernel, by decide +kernel, by decide +kernel⟩

end Osmium
