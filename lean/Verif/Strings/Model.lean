import Verif.Common.Num
/-
Model of utils/delta.hpp and utils/stringtable.hpp.
-/
namespace Osmium

/-! ## Delta (utils/delta.hpp) -/

/-- utils/delta.hpp:47-50 `Delta<int64_t>::update`: the returned difference and the new stored
value; signed overflow of the subtraction is undefined behaviour (`none`). -/
def deltaUpdate (stored newValue : Int) : Option (Int × Int) := do
  let d ← chk64 (newValue - stored)
  return (d, newValue)

/-- utils/delta.hpp:47-50 `Delta<uint32_t>::update`: modular arithmetic. -/
def deltaUpdateU32 (stored newValue : Int) : Int × Int := (wrapU32 (newValue - stored), newValue)

/-- A sequence of `update` calls starting with the stored value `v`
(0 after construction, utils/delta.hpp:39-41, and after `clear`, 43-45). -/
def deltaSeq (v : Int) : List Int → Option (List Int)
  | [] => some []
  | x :: xs => do
    let (d, v') ← deltaUpdate v x
    let ds ← deltaSeq v' xs
    return d :: ds

/-- The same for `Delta<uint32_t>`. (utils/delta.hpp 35-56; used in output/pbf.hpp 402 and 236) -/
def deltaSeqU32 (v : Int) : List Int → List Int
  | [] => []
  | x :: xs => let (d, v') := deltaUpdateU32 v x; d :: deltaSeqU32 v' xs

/-! ## StringTable (utils/stringtable.hpp) -/

/-- utils/stringtable.hpp:69-75 `string_info` with its key in the map. -/
structure StrEnt where
  str : String
  count : Nat
  interim : Nat
deriving DecidableEq, Repr

/-- utils/stringtable.hpp:50-92 class `StringTable`.  The `std::map` is a list of entries (in
insertion order; the iteration order of the map is only used in `store_stringtable`, see there).
`size` is an `int` in the code; that there are less than 2^31 strings is not modelled. -/
structure StringTable where
  ents : List StrEnt
  id2id : List Nat
  size : Nat
deriving DecidableEq, Repr

/-- utils/stringtable.hpp:101-105 constructor. -/
def StringTable.empty : StringTable := ⟨[], [], 0⟩

/-- utils/stringtable.hpp:115-123 the map lookup and update of `record_string`; result: entries,
new size, and the interim id returned.  Ids and counts are `uint16_t`. -/
def recordIn (s : String) (size : Nat) : List StrEnt → List StrEnt × Nat × Nat
  | [] => ([⟨s, 0, (size + 1) % 65536⟩], size + 1, (size + 1) % 65536)
  | e :: es =>
    if e.str = s then
      if e.interim = 0 then
        ({ e with interim := (size + 1) % 65536 } :: es, size + 1, (size + 1) % 65536)
      else
        ({ e with count := (e.count + 1) % 65536 } :: es, size, e.interim)
    else
      let r := recordIn s size es
      (e :: r.1, r.2)

/-- utils/stringtable.hpp:115-123 `record_string`. -/
def StringTable.record (t : StringTable) (s : String) : StringTable × Nat :=
  let r := recordIn s t.size t.ents
  ({ t with ents := r.1, size := r.2.1 }, r.2.2)

/-- utils/stringtable.hpp:107-109, 141-147: the order in which the entries come out of the
`multimap` sorted by count.  The order among entries with the same count depends on the library,
so the whole function is a parameter; what is known: it is a permutation, with non-increasing
counts (`operator<` compares `lhs.count > rhs.count`). -/
structure CountSort where
  sort : List StrEnt → List StrEnt
  perm : ∀ l, (sort l).Perm l
  sorted : ∀ l, (sort l).Pairwise (fun a b => b.count ≤ a.count)

/-- utils/stringtable.hpp:149-158 the loop of `store_stringtable`: `m_id2id_map[interim] = ++n`
(`uint16_t` elements). -/
def fillMap : Nat → List StrEnt → List Nat → List Nat
  | _, [], m => m
  | n, e :: es, m => fillMap (n + 1) es (m.set e.interim ((n + 1) % 65536))

/-- utils/stringtable.hpp:136-159 `store_stringtable`: the table stored into the protobuf message,
and the new state. -/
def StringTable.store (cs : CountSort) (t : StringTable) : List String × StringTable :=
  let sorted := cs.sort t.ents
  ("" :: sorted.map StrEnt.str,
   { t with id2id := fillMap 0 sorted (List.replicate (t.size + 1) 0) })

/-- utils/stringtable.hpp:164-166 `map_string_id`; `none` is an out-of-range access. -/
def StringTable.mapId (t : StringTable) (interim : Nat) : Option Nat := t.id2id[interim]?

/-- utils/stringtable.hpp:171-175 `clear`. -/
def StringTable.clear (_ : StringTable) : StringTable := StringTable.empty

/-- A sequence of `record_string` calls: final state and the returned interim ids. (part of a
program using the library, no counterpart in /repo; utils/stringtable.hpp `record_string`) -/
def StringTable.recordAll (t : StringTable) : List String → StringTable × List Nat
  | [] => (t, [])
  | s :: ss =>
    let (t1, i) := t.record s
    let (t2, is) := t1.recordAll ss
    (t2, i :: is)

end Osmium
