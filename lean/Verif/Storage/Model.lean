import Verif.Common.Num
import Verif.Common.Res

/-
Model of the storages by id, /repo/include/osmium/storage/byid.hpp and byid/*.hpp.

Ids are `uint64_t`: natural numbers below 2^64.  `V` is `TValue`, `dflt` is `TValue()`
and `zero` the value all of whose bytes are zero.
-/
namespace Osmium

/-- 2^64. -/
def two64 : Nat := 18446744073709551616

/-- Result of an unsigned 64 bit computation. -/
def wrapN64 (n : Nat) : Nat := n % two64

theorem wrapN64_of_lt {n : Nat} (h : n < 2 ^ 64) : wrapN64 n = n :=
  Nat.mod_eq_of_lt (by simpa [two64] using h)

attribute [irreducible] wrapN64

/-- Interface of a storage, storage/byid.hpp 52-93: `set`, `operator[]` and `size`.
`used_memory` is modelled in Storage/Usage.lean; `clear`, after which the storage may not be used, is not
modelled either. -/
structure IdStore (S V : Type) where
  empty : S
  set : S → Nat → V → Res S
  get : S → Nat → Res V
  size : S → Nat

/-- A program calling `set(id, value)` for each pair in turn; it stops at the first failure.
(part of a program using the library, no counterpart in /repo) -/
def IdStore.fill {S V : Type} (st : IdStore S V) (ops : List (Nat × V)) : Res S :=
  ops.foldlM (fun s o => st.set s o.1 o.2) st.empty

/-! ### StlMap -/

/-- `std::map::operator[]` followed by an assignment; the map is its sequence of pairs. (called
in storage/byid/stl_map.hpp 52) -/
def mapPut {V : Type} (id : Nat) (v : V) : List (Nat × V) → List (Nat × V)
  | [] => [(id, v)]
  | (k, w) :: m =>
    if id < k then (id, v) :: (k, w) :: m
    else if id = k then (id, v) :: m
    else (k, w) :: mapPut id v m

/-- `std::map::find`. (`at`, called in storage/byid/stl_map.hpp 56) -/
def mapFind {V : Type} (id : Nat) : List (Nat × V) → Option V
  | [] => none
  | (k, w) :: m => if id = k then some w else mapFind id m

/-- byid/stl_map.hpp 43-72: `set` 51-53, `operator[]` is `at()`, which throws
`std::out_of_range`, 55-57, `size` 59-61. -/
def stlMap (V : Type) : IdStore (List (Nat × V)) V where
  empty := []
  set m id v := .ok (mapPut id v m)
  get m id := match mapFind id m with
    | some v => .ok v
    | none => .error (.exn "std::out_of_range")
  size m := m.length

/-! ### SparseTable -/

/-- `google::sparsetable`: its size and the assigned cells. (storage/byid/sparse_table.hpp 97) -/
structure Table (V : Type) where
  size : Nat
  cell : Nat → Option V

/-- `sparsetable::resize`: cells past the new size are dropped. (called in
storage/byid/sparse_table.hpp 67) -/
def Table.resize {V : Type} (t : Table V) (n : Nat) : Table V :=
  { size := n, cell := fun i => if i < n then t.cell i else none }

/-- `sparsetable::operator[]` with assignment; past the end it is undefined behaviour. (called in
storage/byid/sparse_table.hpp 69) -/
def Table.put {V : Type} (t : Table V) (i : Nat) (v : V) : Res (Table V) :=
  if i < t.size then .ok { t with cell := fun j => if j = i then some v else t.cell j }
  else .error .ub

/-- byid/sparse_table.hpp 58-97: constructor 58-63, `set` 65-70 with the addition modulo 2^64,
`operator[]` 72-77 (an unassigned cell reads as `TValue()`), `size` 79-81. -/
def sparseTable (V : Type) (dflt : V) (grow : Nat) : IdStore (Table V) V where
  empty := { size := grow, cell := fun _ => none }
  set t id v :=
    let t := if t.size ≤ id then t.resize (wrapN64 (id + grow)) else t
    t.put id v
  get t id := if t.size ≤ id then .ok dflt else .ok ((t.cell id).getD dflt)
  size t := t.size

/-! ### Vector -/

/-- `std::lower_bound` on a random access range, as libstdc++ implements it: `first` and `len`
are the current range. (called in storage/byid/vector.hpp 87) -/
def lowerBound {V : Type} (items : List (Int × V)) (key : Int) (first len : Nat) : Nat :=
  if len = 0 then first
  else
    let half := len / 2
    match items[first + half]? with
    | none => first
    | some it =>
      if it.1 < key then lowerBound items key (first + half + 1) (len - half - 1)
      else lowerBound items key first half
  termination_by len
  decreasing_by all_goals omega

/-- byid/vector.hpp: the id is converted to `int64_t` (49-56), `set` 81-83, `operator[]`
85-93, `size` 95-97. -/
def vectorStore (V : Type) (dflt : V) : IdStore (List (Int × V)) V where
  empty := []
  set items id v := .ok (items ++ [(wrapS64 id, v)])
  get items id :=
    match items[lowerBound items (wrapS64 id) 0 items.length]? with
    | none => .ok dflt
    | some it => if it.1 ≠ wrapS64 id then .ok dflt else .ok it.2
  size items := items.length

/-! ### FixedArray -/

/-- The block returned by `malloc` (its length in bytes) and the cells written so far; other
cells are indeterminate. (storage/byid/fixed_array.hpp 66-105) -/
structure Block (V : Type) where
  bytes : Nat
  cell : Nat → Option V

/-- byid/fixed_array.hpp 65-103.  `sz` is `sizeof(TValue)`; the product in the constructor 68 is
computed modulo 2^64 and `malloc` is taken to succeed.  An access outside of the block or to an
indeterminate cell is undefined behaviour. -/
def fixedArray (V : Type) (sz max : Nat) : IdStore (Block V) V where
  empty := { bytes := wrapN64 (sz * max), cell := fun _ => none }
  set b id v :=
    if sz * (id + 1) ≤ b.bytes then
      .ok { b with cell := fun j => if j = id then some v else b.cell j }
    else .error .ub
  get b id :=
    if sz * (id + 1) ≤ b.bytes then Res.ofOption (b.cell id) else .error .ub
  size _ := max

/-! ### MmapAnon and MmapFile -/

/-- `size_increment`, byid/mmap_anon.hpp 60 and byid/mmap_file.hpp 56. -/
def sizeIncrement : Nat := 10485760

/-- A mapping: `m_size`, its length in bytes, and the cells behind it.
(storage/byid/mmap_anon.hpp 66-72 and 108-114) -/
structure Mapping (V : Type) where
  size : Nat
  bytes : Nat
  cell : Nat → V

/-- Writing through the mapping. (storage/byid/mmap_anon.hpp 89, storage/byid/mmap_file.hpp 128) -/
def Mapping.put {V : Type} (sz : Nat) (m : Mapping V) (id : Nat) (v : V) : Res (Mapping V) :=
  if sz * (id + 1) ≤ m.bytes then
    .ok { m with cell := fun j => if j = id then v else m.cell j }
  else .error .ub

/-- Reading through the mapping. (storage/byid/mmap_anon.hpp 93, storage/byid/mmap_file.hpp 132) -/
def Mapping.read {V : Type} (sz : Nat) (m : Mapping V) (id : Nat) : Res V :=
  if sz * (id + 1) ≤ m.bytes then .ok (m.cell id) else .error .ub

/-- byid/mmap_anon.hpp 66-112, for any increment `inc`.  `os bytes` tells whether the system grants a mapping of that
length; the products are computed modulo 2^64.  `mremap` keeps the cells inside both the old and
the new mapping, new cells are zero.  The mapping of the constructor is taken to be granted. -/
def mmapAnon (V : Type) (zero : V) (sz inc : Nat) (os : Nat → Bool) : IdStore (Mapping V) V where
  empty := { size := inc, bytes := wrapN64 (sz * inc), cell := fun _ => zero }
  set m id v :=
    if m.size ≤ id then
      let newSize := wrapN64 (id + inc)
      let newBytes := wrapN64 (sz * newSize)
      if os newBytes then
        let kept := fun j =>
          if sz * (j + 1) ≤ m.bytes ∧ sz * (j + 1) ≤ newBytes then m.cell j else zero
        Mapping.put sz { size := newSize, bytes := newBytes, cell := kept } id v
      else .error (.exn "std::bad_alloc")
    else Mapping.put sz m id v
  get m id := Mapping.read sz m id
  size m := m.size

/-- The backing file of `MmapFile`: length in bytes and its content as cells, cells past the
end being zero. (storage/byid/mmap_file.hpp 66-128) -/
structure Backing (V : Type) where
  bytes : Nat
  cell : Nat → V

/-- The state of `MmapFile`: size and byte length of the (shared) mapping, and the file.
(storage/byid/mmap_file.hpp 147-164) -/
structure FileMap (V : Type) where
  size : Nat
  mapped : Nat
  file : Backing V

/-- `get_file_size() < n` then `ftruncate(n)`, byid/mmap_file.hpp 92-96 and 113-117. -/
def Backing.atLeast {V : Type} (f : Backing V) (n : Nat) : Backing V :=
  if f.bytes < n then { f with bytes := n } else f

/-- byid/mmap_file.hpp 66-153, for any increment `inc`.  `init` is the file found when opening (empty for temporary
files); its cells past its end are zero.  The mapping is shared, so the cells live in the file.
`os bytes` tells whether the system grants the enlargement and mapping of that length.  Accesses
outside of the mapping are undefined behaviour.  Opening is taken to succeed. -/
def mmapFile (V : Type) (sz inc : Nat) (os : Nat → Bool) (init : Backing V)
    : IdStore (FileMap V) V where
  empty := { size := 1, mapped := wrapN64 (sz * 1), file := init.atLeast (wrapN64 (sz * 1)) }
  set m id v :=
    let put (m : FileMap V) : Res (FileMap V) :=
      if sz * (id + 1) ≤ m.mapped then
        .ok { m with file :=
          { m.file with cell := fun j => (if j = id then v else m.file.cell j) } }
      else .error .ub
    if m.size ≤ id then
      let newSize := wrapN64 (id + inc)
      let newBytes := wrapN64 (sz * newSize)
      if os newBytes then
        put { size := newSize, mapped := newBytes, file := m.file.atLeast newBytes }
      else .error (.exn "std::bad_alloc")
    else put m
  get m id := if sz * (id + 1) ≤ m.mapped then .ok (m.file.cell id) else .error .ub
  size m := m.size

end Osmium
