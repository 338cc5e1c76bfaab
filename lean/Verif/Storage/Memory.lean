import Verif.Storage.Model
import Mathlib.Data.List.Nodup
import Mathlib.Logic.Function.Basic

/-
C101: the memory of the storages by id that manage it themselves: who obtains, uses and gives back which block of
memory.  What is in the memory and whether an index is within a block is the business of `Storage.Model`.
-/
namespace Osmium

/-- `FixedArray`, `MmapAnon`, `MmapFile`. (storage/byid/fixed_array.hpp, mmap_anon.hpp, mmap_file.hpp) (classes in
lines 54-105, 55-114 and 51-164) -/
inductive MemKind
  | fixed
  | anon
  | file
deriving DecidableEq, Repr

/-- `m_items`: NULL, `MAP_FAILED` or an address. (storage/byid/fixed_array.hpp 103, mmap_anon.hpp 112, mmap_file.hpp
151) -/
inductive MemPtr
  | null
  | failed
  | addr (a : Nat)
deriving DecidableEq, Repr

/-- A storage: `m_size` and `m_items`. (storage/byid/fixed_array.hpp 101-103, mmap_anon.hpp 110-112, mmap_file.hpp
149-151) -/
structure MemObj where
  kind : MemKind
  size : Nat
  items : MemPtr
deriving DecidableEq, Repr

/-- The program.  `blocks` is the memory in use: the serial number of the block at an address.  The rest records what
happened: `made` the blocks obtained by the storages, `freed` the calls of `free` and `munmap`, `used` the accesses to
values (and `mremap`), each with the storage and the block at the address (`none`: there is none), `files` the storages
that opened a file.  Nobody ever closes one of these files. (the operating system and the C library) (calls in
storage/byid/fixed_array.hpp 65-97, mmap_anon.hpp 66-106, mmap_file.hpp 66-145) -/
structure MemWorld where
  objs : Nat → Option MemObj
  blocks : Nat → Option Nat
  serial : Nat
  made : List (Nat × Nat)
  freed : List (Nat × Option Nat)
  used : List (Nat × Option Nat)
  files : List Nat

/-- At the beginning there is nothing. (no counterpart in /repo) -/
def MemWorld.init : MemWorld := ⟨fun _ => none, fun _ => none, 0, [], [], [], []⟩

/-- What the operating system answers when a storage wants to grow: the file can't be made larger, there is no
address space, or the new address. (storage/byid/mmap_anon.hpp 83-86, mmap_file.hpp 113-125) -/
inductive GrowAnswer
  | noFile
  | noMemory
  | at (a : Nat)
deriving DecidableEq, Repr

/-- What can happen.  `otherMap` and `otherUnmap` are done by other parts of the program, with memory of their own.
(the constructors, destructors and methods in storage/byid/fixed_array.hpp 65-97, mmap_anon.hpp 66-106, mmap_file.hpp
66-145) -/
inductive MemOp
  /-- constructor of storage `i`; `malloc` or `mmap` returns this address or fails -/
  | create (i : Nat) (kind : MemKind) (max : Nat) (answer : Option Nat)
  | set (i id : Nat) (answer : GrowAnswer)
  | get (i id : Nat)
  | clear (i : Nat)
  /-- destructor -/
  | destroy (i : Nat)
  | otherMap (a : Nat)
  | otherUnmap (a : Nat)
deriving DecidableEq, Repr

/-- What is at this address. (the operating system) (calls in storage/byid/fixed_array.hpp 65-97, mmap_anon.hpp
66-106, mmap_file.hpp 66-145) -/
def MemWorld.behind (w : MemWorld) : MemPtr → Option Nat
  | .addr a => w.blocks a
  | _ => none

/-- `m_items[id]`, by storage `i`. (storage/byid/fixed_array.hpp 79, 83; mmap_anon.hpp 89, 93; mmap_file.hpp 128,
132) -/
def MemWorld.access (w : MemWorld) (i : Nat) (p : MemPtr) : MemWorld := { w with used := w.used ++ [(i, w.behind p)] }

/-- `munmap` and `free`, called by storage `i`, and whether this succeeds.  There need not be anything at the address;
`MAP_FAILED` is not an address of a page. (the operating system) (calls in storage/byid/fixed_array.hpp 65-97,
mmap_anon.hpp 66-106, mmap_file.hpp 66-145) -/
def MemWorld.unmap (w : MemWorld) (i : Nat) : MemPtr → MemWorld × Bool
  | .addr a => ({ w with blocks := Function.update w.blocks a none, freed := w.freed ++ [(i, w.blocks a)] }, true)
  | _ => ({ w with freed := w.freed ++ [(i, none)] }, false)

/-- `malloc` and `mmap`, called by storage `i`: the block gets the next serial number. (the C library and the operating
system) (calls in storage/byid/fixed_array.hpp 65-97, mmap_anon.hpp 66-106, mmap_file.hpp 66-145) -/
def MemWorld.map (w : MemWorld) (i a : Nat) : MemWorld :=
  { w with blocks := Function.update w.blocks a (some w.serial), serial := w.serial + 1,
           made := w.made ++ [(w.serial, i)] }

/-- Changing storage `i`. (no counterpart in /repo) -/
def MemWorld.put (w : MemWorld) (i : Nat) (o : Option MemObj) : MemWorld := { w with objs := Function.update w.objs i o }

/-- `clear`: fixed_array.hpp 94-97 (`free(NULL)` does nothing), mmap_anon.hpp 104-106, mmap_file.hpp 143-145.  (Whether
`munmap` fails is not checked.) -/
def MemWorld.clearObj (w : MemWorld) (i : Nat) (o : MemObj) : MemWorld :=
  match o.kind with
  | .fixed => if o.items = .null then w else (w.unmap i o.items).1.put i (some { o with items := .null })
  | _ => (w.unmap i o.items).1

/-- `set` where the storage has to grow: the new world and the storage, or with `true` a thrown exception; `none` if the
system cannot answer this.
mmap_anon.hpp 80-88: `mremap` moves the block behind `m_items` or fails, also if there is none; mmap_file.hpp 109-127:
`ftruncate`, `munmap`, `mmap`.  `m_items` is assigned before it is compared with `MAP_FAILED`. -/
def MemWorld.growObj (w : MemWorld) (i id : Nat) (o : MemObj) : GrowAnswer → Option (MemWorld × MemObj × Bool)
  | .noFile => if o.kind = .file then some (w, o, true) else none
  | .noMemory =>
    if o.kind = .file then
      let (w1, ok) := w.unmap i o.items
      if ok then some (w1, { o with items := .failed }, true) else some (w1, o, true)
    else some (w.access i o.items, { o with items := .failed }, true)
  | .at b =>
    if o.kind = .file then
      let (w1, ok) := w.unmap i o.items
      if ok then
        if (w1.blocks b).isNone then some (w1.map i b, { o with items := .addr b, size := wrapN64 (id + sizeIncrement) }, false)
        else none
      else some (w1, o, true)
    else
      match o.items with
      | .addr a =>
        if (w.blocks a).isSome ∧ (a = b ∨ (w.blocks b).isNone) then
          some ({ w.access i o.items with
                    blocks := Function.update (Function.update w.blocks a none) b (w.blocks a) },
            { o with items := .addr b, size := wrapN64 (id + sizeIncrement) }, false)
        else none
      | _ => none

/-- One operation: the new world and whether an exception is thrown; `none` if it is impossible.
Constructors: fixed_array.hpp 65-72, mmap_anon.hpp 66-73, mmap_file.hpp 64-102 (here opening the file succeeds); if one of
them throws there is no storage.  `set`: fixed_array.hpp 78-80, mmap_anon.hpp 79-90, mmap_file.hpp 108-129;
`operator[]`: 82-84, 92-94, 131-133; destructors: 74-76, 75-77, 104-106. -/
def MemWorld.step (w : MemWorld) : MemOp → Option (MemWorld × Bool)
  | .create i kind max answer =>
    if (w.objs i).isNone then
      let w1 := if kind = .file then { w with files := w.files ++ [i] } else w
      match answer with
      | none => some (w1, true)
      | some a =>
        if (w.blocks a).isNone then
          let size := match kind with
            | .fixed => max
            | .anon => sizeIncrement
            | .file => 1
          some ((w1.map i a).put i (some ⟨kind, size, .addr a⟩), false)
        else none
    else none
  | .set i id answer =>
    match w.objs i with
    | none => none
    | some o =>
      if o.kind ≠ .fixed ∧ id ≥ o.size then
        match w.growObj i id o answer with
        | none => none
        | some (w1, o1, true) => some (w1.put i (some o1), true)
        | some (w1, o1, false) => some ((w1.put i (some o1)).access i o1.items, false)
      else some (w.access i o.items, false)
  | .get i _ =>
    match w.objs i with
    | none => none
    | some o => some (w.access i o.items, false)
  | .clear i =>
    match w.objs i with
    | none => none
    | some o => some (w.clearObj i o, false)
  | .destroy i =>
    match w.objs i with
    | none => none
    | some o => some ((w.clearObj i o).put i none, false)
  | .otherMap a =>
    if (w.blocks a).isNone then
      some ({ w with blocks := Function.update w.blocks a (some w.serial), serial := w.serial + 1 }, false)
    else none
  | .otherUnmap a =>
    match w.blocks a with
    | none => none
    | some s =>
      if s ∈ w.made.map Prod.fst then none
      else some ({ w with blocks := Function.update w.blocks a none }, false)

/-- A sequence of operations: the world afterwards and which of them threw. (helper for statements, no counterpart in
/repo) -/
def MemWorld.run (w : MemWorld) : List MemOp → Option (MemWorld × List Bool)
  | [] => some (w, [])
  | op :: ops =>
    match w.step op with
    | none => none
    | some (w', b) => (w'.run ops).map fun r => (r.1, b :: r.2)

/-- The worlds that can be reached by operations allowed by `P`. (helper for statements and proofs, no counterpart in
/repo) -/
inductive MemReach (P : MemWorld → MemOp → Prop) : MemWorld → Prop
  | init : MemReach P MemWorld.init
  | step {w w' : MemWorld} {op : MemOp} {thrown : Bool} (h : MemReach P w) (hp : P w op)
      (hs : w.step op = some (w', thrown)) : MemReach P w'

end Osmium
