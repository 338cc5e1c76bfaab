/-
Fixed-width integer helpers shared by the model.

The C++ code uses `int32_t`, `uint32_t`, `int64_t`, `uint16_t`.  The model uses
unbounded `Int`/`Nat` values together with explicit range predicates, explicit
truncations (`wrapS32` etc., the conversions the compiler performs on assignment)
and explicit overflow checks (`chk64`, where the C++ program would have undefined
behaviour because of signed overflow).
-/
namespace Osmium

/-- Value range of `int32_t`. (`osm_changeset_id_t` and `osm_user_id_t` in osm/types.hpp 46-47, the coordinates in
osm/position.hpp 134-135) -/
def InS32 (x : Int) : Prop := -2147483648 ≤ x ∧ x ≤ 2147483647
/-- Value range of `uint32_t`. (`osm_version_t` and `osm_sequence_id_t` in osm/types.hpp 45 and 48) -/
def InU32 (x : Int) : Prop := 0 ≤ x ∧ x ≤ 4294967295
/-- Value range of `int64_t`. (`osm_object_id_t` in osm/types.hpp 44) -/
def InS64 (x : Int) : Prop := -9223372036854775808 ≤ x ∧ x ≤ 9223372036854775807
/-- Value range of `uint64_t`. (ids of the storages, storage/byid.hpp 68-88) -/
def InU64 (x : Int) : Prop := 0 ≤ x ∧ x ≤ 18446744073709551615

instance (x : Int) : Decidable (InS32 x) := by unfold InS32; infer_instance
instance (x : Int) : Decidable (InU32 x) := by unfold InU32; infer_instance
instance (x : Int) : Decidable (InS64 x) := by unfold InS64; infer_instance
instance (x : Int) : Decidable (InU64 x) := by unfold InU64; infer_instance

/-- Conversion to `int32_t` (two's complement truncation, as all supported compilers do). (for example in
osm/types.hpp 64-70) -/
def wrapS32 (x : Int) : Int := (x + 2147483648) % 4294967296 - 2147483648
/-- Conversion to `uint32_t`. (for example in osm/types.hpp 60-62) -/
def wrapU32 (x : Int) : Int := x % 4294967296
/-- Conversion to `int64_t`. (for example in utils/delta.hpp 47-50) -/
def wrapS64 (x : Int) : Int :=
  (x + 9223372036854775808) % 18446744073709551616 - 9223372036854775808
/-- Conversion to `uint64_t`. (for example `-id` in handler/coordinates_for_ways.hpp 57 and 72) -/
def wrapU64 (x : Int) : Int := x % 18446744073709551616
/-- Conversion to `uint16_t`. (`string_id_t` in utils/stringtable.hpp 57) -/
def wrapU16 (x : Int) : Int := x % 65536

/-- Result of a signed 64-bit operation: `none` is signed overflow, i.e. undefined behaviour. -/
def chk64 (x : Int) : Option Int := if InS64 x then some x else none

theorem chk64_eq_some {x y : Int} : chk64 x = some y ↔ InS64 x ∧ x = y := by
  unfold chk64; split <;> simp_all

theorem wrapS32_of_in {x : Int} (h : InS32 x) : wrapS32 x = x := by
  unfold InS32 wrapS32 at *; omega
theorem wrapU32_of_in {x : Int} (h : InU32 x) : wrapU32 x = x := by
  unfold InU32 wrapU32 at *; omega
theorem wrapS64_of_in {x : Int} (h : InS64 x) : wrapS64 x = x := by
  unfold InS64 wrapS64 at *; omega
theorem wrapU64_of_in {x : Int} (h : InU64 x) : wrapU64 x = x := by
  unfold InU64 wrapU64 at *; omega
theorem wrapS32_in (x : Int) : InS32 (wrapS32 x) := by unfold InS32 wrapS32; omega
theorem wrapU32_in (x : Int) : InU32 (wrapU32 x) := by unfold InU32 wrapU32; omega
theorem wrapS64_in (x : Int) : InS64 (wrapS64 x) := by unfold InS64 wrapS64; omega
theorem wrapU64_in (x : Int) : InU64 (wrapU64 x) := by unfold InU64 wrapU64; omega

end Osmium
