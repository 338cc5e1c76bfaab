import Verif.Storage.Model

/-
C120: how much memory the storages say they use (storage/byid/*.hpp `used_memory`).  All computations are on `uint64_t`.
-/
namespace Osmium

/-- storage/byid/stl_map.hpp 63-65 `used_memory`. -/
def stlMapUsed {V : Type} (_ : List (Nat × V)) : Nat := 0

/-- `sparsetable::num_nonempty`. (called in storage/byid/sparse_table.hpp 86) -/
def Table.nonempty {V : Type} (t : Table V) : Nat := (List.range t.size).countP fun i => (t.cell i).isSome

/-- storage/byid/sparse_table.hpp 83-87 `used_memory`; `sz` is `sizeof(TValue)`. -/
def sparseTableUsed {V : Type} (sz : Nat) (t : Table V) : Nat := wrapN64 (t.size / 8 + wrapN64 (t.nonempty * sz))

/-- storage/byid/vector.hpp 99-101 `used_memory`; `item` is `sizeof(item_t)`. -/
def vectorUsed {V : Type} (item : Nat) (items : List (Int × V)) : Nat := wrapN64 (items.length * item)

/-- storage/byid/fixed_array.hpp 90-92 `used_memory`. -/
def fixedArrayUsed {V : Type} (sz max : Nat) (_ : Block V) : Nat := wrapN64 (max * sz)

/-- storage/byid/mmap_anon.hpp 100-102 `used_memory`. -/
def mmapAnonUsed {V : Type} (sz : Nat) (m : Mapping V) : Nat := wrapN64 (m.size * sz)

/-- storage/byid/mmap_file.hpp 139-141 `used_memory`. -/
def mmapFileUsed {V : Type} (sz : Nat) (m : FileMap V) : Nat := wrapN64 (m.size * sz)

end Osmium
