import Verif.Pbf.FileProps
import Verif.Pbf.Props
/-
C67: what is in a PBF file if writing it is interrupted at any point, or if `write(2)` fails.
-/
namespace Osmium
open Spec

/-- How the operating system answers the `i`-th `write` call, asked to write `n` bytes: `none` is an
error (-1), `some k` means that `min k n` bytes are written and their number is returned.
(output/pbf.hpp 349-357) -/
abbrev OsWrite := Nat → Nat → Option Nat

/-- output/pbf.hpp 349-357: the `write` calls, one after the other; the result of a call is only
compared with 0.  Result: what is appended to the file, and whether `runtime_error("file error")`
was thrown (which ends the program, or at least the writing). -/
def osWrites (os : OsWrite) : Nat → List Bytes → Bytes × Bool
  | _, [] => ([], false)
  | i, b :: bs =>
    match os i b.length with
    | none => ([], true)
    | some k =>
      let r := osWrites os (i + 1) bs
      (b.take k ++ r.1, r.2)

/-- The arguments of the `write` calls for a sequence of blobs. (output/pbf.hpp 349-357) -/
def storeCalls (c : BlobCodec) (compress : Bool) : List (String × Bytes) → Res (List Bytes)
  | [] => .ok []
  | (t, d) :: bs => do
    let ws ← storeBlob c compress t d
    let rest ← storeCalls c compress bs
    return ws ++ rest

/-- output/pbf.hpp 865-896 `init`, then the objects one after the other without exception: the
arguments of the `write` calls made so far. -/
def callsSoFar (lib : PbfLib) (c : PbfCodec) (cfg : PbfCfg) (compress : Bool) (ft : FileType)
    (g : String) (m : Meta) (objs : List OsmObj) : Res (List Bytes) := do
  let w ← (Writer.new cfg).writeAll lib objs
  storeCalls c.toBlobCodec compress
    (("OSMHeader", c.encHeader (headerMsg cfg ft g m)) :: w.out.map (fun b => ("OSMData", c.encBlock b)))

/-- The same for a complete file, with `final` (output/pbf.hpp 978-989). -/
def fileCalls (lib : PbfLib) (c : PbfCodec) (cfg : PbfCfg) (compress : Bool) (ft : FileType)
    (g : String) (m : Meta) (objs : List OsmObj) : Res (List Bytes) := do
  let blocks ← pbfBlocks lib cfg objs
  storeCalls c.toBlobCodec compress
    (("OSMHeader", c.encHeader (headerMsg cfg ft g m)) :: blocks.map (fun b => ("OSMData", c.encBlock b)))

namespace Spec

/-- A `write` call never writes only a part of the bytes without an error. (specification, no counterpart in /repo) -/
def NoShortWrites (os : OsWrite) : Prop := ∀ i n k, os i n = some k → n ≤ k

/-- If a `write` call writes only a part of the bytes (the disk is full), then all later calls
fail. (specification, no counterpart in /repo) -/
def ShortThenFail (os : OsWrite) : Prop :=
  ∀ i n k, os i n = some k → k < n → ∀ j n', i < j → os j n' = none

end Spec

theorem storeBlobs_calls (c : BlobCodec) (z : Bool) (bs : List (String × Bytes)) :
    storeBlobs c z bs = (storeCalls c z bs).map List.flatten := by
  induction bs with
  | nil => rfl
  | cons b bs ih =>
    obtain ⟨t, d⟩ := b
    unfold storeBlobs storeCalls
    rw [ih]
    cases storeBlob c z t d with
    | error e => rfl
    | ok ws =>
      cases storeCalls c z bs with
      | error e => rfl
      | ok rest => simp [bind, Except.bind, Except.map, pure, Except.pure]

theorem pbfFile_calls (lib : PbfLib) (c : PbfCodec) (cfg : PbfCfg) (z : Bool) (ft : FileType)
    (g : String) (m : Meta) (objs : List OsmObj) :
    pbfFile lib c cfg z ft g m objs = (fileCalls lib c cfg z ft g m objs).map List.flatten := by
  unfold pbfFile fileCalls
  cases pbfBlocks lib cfg objs with
  | error e => rfl
  | ok bs =>
    show storeBlobs _ _ _ = Except.map _ (storeCalls _ _ _)
    exact storeBlobs_calls _ _ _

theorem storeCalls_append {c : BlobCodec} {z : Bool} {as bs : List (String × Bytes)} {ws : List Bytes}
    (h : storeCalls c z (as ++ bs) = .ok ws) :
    ∃ us vs, storeCalls c z as = .ok us ∧ ws = us ++ vs := by
  induction as generalizing ws with
  | nil => exact ⟨[], ws, rfl, rfl⟩
  | cons a as ih =>
    obtain ⟨t, d⟩ := a
    simp only [List.cons_append, storeCalls] at h ⊢
    obtain ⟨u, h1, h⟩ := except_bind_ok h
    obtain ⟨r, h2, h⟩ := except_bind_ok h
    cases h
    obtain ⟨us, vs, e1, rfl⟩ := ih h2
    rw [h1, e1]
    exact ⟨u ++ us, vs, rfl, by simp⟩

theorem check_out {lib : PbfLib} {w w' : Writer} (h : w.check lib = .ok w') : w.out <+: w'.out := by
  unfold Writer.check at h
  dsimp only at h
  split at h
  · obtain ⟨a, h4, h⟩ := except_bind_ok h
    obtain ⟨b, rfl, _⟩ := store_eq h4
    cases h
    exact List.prefix_append _ _
  · split at h
    · obtain ⟨a, h4, h⟩ := except_bind_ok h
      obtain ⟨b, rfl, _⟩ := store_eq h4
      cases h
      exact List.prefix_append _ _
    · cases h
      exact List.prefix_rfl

theorem writeAll_out {lib : PbfLib} {w w' : Writer} {os : List OsmObj}
    (h : w.writeAll lib os = .ok w') : w.out <+: w'.out := by
  induction os generalizing w with
  | nil => cases h; exact List.prefix_rfl
  | cons o os ih =>
    simp only [Writer.writeAll] at h
    obtain ⟨⟨w1, t⟩, h1, h⟩ := except_bind_ok h
    unfold Writer.write at h1
    obtain ⟨w2, h2, h1⟩ := except_bind_ok h1
    have had : w1.out = w2.out := (put_added h1).out
    cases t with
    | true => simp at h
    | false =>
      simp only [Bool.false_eq_true, if_false] at h
      have := ih h
      rw [had] at this
      exact (check_out h2).trans this

theorem writeAll_append {lib : PbfLib} {w w' : Writer} {as bs : List OsmObj}
    (h : w.writeAll lib (as ++ bs) = .ok w') :
    ∃ v, w.writeAll lib as = .ok v ∧ v.writeAll lib bs = .ok w' := by
  induction as generalizing w with
  | nil => exact ⟨w, rfl, h⟩
  | cons o as ih =>
    simp only [List.cons_append, Writer.writeAll] at h ⊢
    obtain ⟨⟨w1, t⟩, h1, h⟩ := except_bind_ok h
    rw [h1]
    cases t with
    | true => simp at h
    | false =>
      simp only [Bool.false_eq_true, if_false] at h
      obtain ⟨v, e1, e2⟩ := ih h
      exact ⟨v, e1, e2⟩

/-- **C67** (history): the `write` calls made after some of the objects have been written are the
first so many of the calls made for the whole file. -/
theorem calls_prefix (lib : PbfLib) (c : PbfCodec) (cfg : PbfCfg) (z : Bool) (ft : FileType)
    (g : String) (m : Meta) (as bs : List OsmObj) (ws : List Bytes)
    (h : fileCalls lib c cfg z ft g m (as ++ bs) = .ok ws) :
    ∃ us, callsSoFar lib c cfg z ft g m as = .ok us ∧ us <+: ws := by
  unfold fileCalls at h
  obtain ⟨blocks, h1, h⟩ := except_bind_ok h
  unfold pbfBlocks at h1
  obtain ⟨w, h2, h1⟩ := except_bind_ok h1
  obtain ⟨w', h3, h1⟩ := except_bind_ok h1
  cases h1
  obtain ⟨v, e1, e2⟩ := writeAll_append h2
  have hp : v.out <+: w'.out := by
    refine (writeAll_out e2).trans ?_
    unfold Writer.final at h3
    split at h3
    · obtain ⟨b, rfl, _⟩ := store_eq h3
      exact List.prefix_append _ _
    · cases h3; exact List.prefix_rfl
  obtain ⟨rest, hrest⟩ := hp
  rw [← hrest, List.map_append, ← List.cons_append] at h
  obtain ⟨us, vs, e3, rfl⟩ := storeCalls_append h
  refine ⟨us, ?_, List.prefix_append _ _⟩
  unfold callsSoFar
  rw [e1]
  exact e3

theorem osWrites_all_fail (os : OsWrite) (i : Nat) (bs : List Bytes)
    (h : ∀ j n, i ≤ j → os j n = none) : (osWrites os i bs).1 = [] := by
  cases bs with
  | nil => rfl
  | cons b bs => simp only [osWrites, h i b.length (Nat.le_refl i)]

theorem osWrites_prefix (os : OsWrite) (hos : ShortThenFail os) (i : Nat) (bs : List Bytes) :
    (osWrites os i bs).1 <+: bs.flatten := by
  induction bs generalizing i with
  | nil => exact List.prefix_rfl
  | cons b bs ih =>
    unfold osWrites
    cases hk : os i b.length with
    | none => exact List.nil_prefix
    | some k =>
      simp only [List.flatten_cons]
      by_cases hs : k < b.length
      · rw [osWrites_all_fail os (i + 1) bs (fun j n hj => hos i _ k hk hs j n (by omega)),
          List.append_nil]
        exact (List.take_prefix k b).trans (List.prefix_append _ _)
      · rw [List.take_of_length_le (by omega)]
        exact (List.prefix_append_right_inj b).mpr (ih (i + 1))

/-- **C67** (`_partial`: short writes must be followed by failing writes).  A program writes the
objects `as ++ bs` (sorted by type); it ends after `as` has been written: because it is killed, or
because a write fails.  Whatever is in the file then, reading it yields the first so many of the
objects, unchanged, and then `parse` returns or throws an exception. -/
theorem pbf_crash_partial (lib : PbfLib) (c : PbfCodec) (cfg : PbfCfg) (hc : cfg.Exact)
    (compress : Bool) (ft : FileType) (g : String) (m : Meta)
    (h1 : m.bounds.bottomLeft.WF) (h2 : m.bounds.topRight.WF) (as bs : List OsmObj)
    (ho : ∀ o ∈ as ++ bs, o.PbfOk) (hs : FewStrings cfg.metadata (as ++ bs))
    (hsort : SortedByType (as ++ bs))
    (data : Bytes) (hw : pbfFile lib c cfg compress ft g m (as ++ bs) = .ok data)
    (hfit : ∀ bl, pbfBlocks lib cfg (as ++ bs) = .ok bl →
      ∀ b ∈ fileBlobs c cfg ft g m bl, BlobFits c.toBlobCodec compress b.1 b.2)
    (os : OsWrite) (hos : ShortThenFail os)
    (h : Stops) (hh : ∀ l, h l = false) (chunks : Nat → Nat) :
    ∃ ws, callsSoFar lib c cfg compress ft g m as = .ok ws ∧
      let r := pbfParse c ft h ⟨(osWrites os 0 ws).1, chunks⟩
      objects r.1 <+: (as ++ bs).map (kept cfg.metadata cfg.addVisible) ∧
      (r.2 = .returned ∨ ∃ msg, r.2 = .threw (.exn msg)) := by
  have hw0 := hw
  rw [pbfFile_calls] at hw
  cases ha : fileCalls lib c cfg compress ft g m (as ++ bs) with
  | error e => rw [ha] at hw; cases hw
  | ok ws =>
    rw [ha] at hw
    cases hw
    obtain ⟨us, e1, vs, rfl⟩ := calls_prefix lib c cfg compress ft g m as bs ws ha
    refine ⟨us, e1, ?_⟩
    have hp := osWrites_prefix os hos 0 us
    have hp2 : (osWrites os 0 us).1 <+: (us ++ vs).flatten := by
      rw [List.flatten_append]
      exact hp.trans (List.prefix_append _ _)
    rw [List.prefix_iff_eq_take.mp hp2]
    exact pbf_truncated lib c cfg hc compress ft g m h1 h2 (as ++ bs) ho hs hsort _ hw0 hfit h hh _
      chunks

/-- **C67** (`_partial`: no short writes).  If no `write` call writes only a part of the bytes: an
exception is thrown exactly if a call fails, and without exception the file is complete. -/
theorem pbf_write_complete_partial (os : OsWrite) (hos : NoShortWrites os) (i : Nat)
    (ws : List Bytes) :
    ((osWrites os i ws).2 = true ↔ ∃ j, ∃ hj : j < ws.length, os (i + j) ws[j].length = none) ∧
    ((osWrites os i ws).2 = false → (osWrites os i ws).1 = ws.flatten) := by
  induction ws generalizing i with
  | nil => simp [osWrites]
  | cons b bs ih =>
    unfold osWrites
    cases hk : os i b.length with
    | none => exact ⟨by simp only [true_iff]; exact ⟨0, by simp, by simpa using hk⟩, by simp⟩
    | some k =>
      obtain ⟨i1, i2⟩ := ih (i + 1)
      simp only
      refine ⟨?_, ?_⟩
      · rw [i1]
        constructor
        · rintro ⟨j, hj, e⟩
          exact ⟨j + 1, by simpa using hj, by simpa [Nat.add_assoc, Nat.add_comm 1 j] using e⟩
        · rintro ⟨j, hj, e⟩
          cases j with
          | zero => simp [hk] at e
          | succ j => exact ⟨j, by simpa using hj, by simpa [Nat.add_assoc, Nat.add_comm 1 j] using e⟩
      · intro h
        rw [i2 h, List.take_of_length_le (hos i _ k hk), List.flatten_cons]

/-- **C67**, why the hypothesis is needed: for every non-empty file there is a system on which the
last `write` call writes nothing at all of its bytes, all other calls everything, and no exception
is thrown: the file is incomplete without notice. -/
theorem pbf_short_write_unnoticed (ws : List Bytes) (b : Bytes) (hb : b ≠ []) :
    ∃ os : OsWrite, (∀ i n, i < ws.length → os i n = some n) ∧
      (osWrites os 0 (ws ++ [b])).2 = false ∧ (osWrites os 0 (ws ++ [b])).1 = ws.flatten ∧
      ws.flatten ≠ (ws ++ [b]).flatten := by
  let os : OsWrite := fun i n => if i < ws.length then some n else some 0
  refine ⟨os, fun i n h => by simp [os, h], ?_⟩
  have key : ∀ (us : List Bytes) (i : Nat), i + us.length = ws.length →
      osWrites os i (us ++ [b]) = (us.flatten, false) := by
    intro us
    induction us with
    | nil => intro i h; simp [osWrites, os, ← h]
    | cons u us ih =>
      intro i h
      simp only [List.length_cons] at h
      simp only [List.cons_append, osWrites, os, show i < ws.length by omega, if_true]
      rw [ih (i + 1) (by omega)]
      simp
  rw [key ws 0 (by simp)]
  refine ⟨rfl, rfl, ?_⟩
  intro e
  rw [List.flatten_append] at e
  have := congrArg List.length e
  simp only [List.length_append, List.flatten_cons, List.flatten_nil, List.append_nil] at this
  exact hb (List.eq_nil_of_length_eq_zero (by omega))

/-- **C67** (durability): the program is killed after the objects `as` have been written, and all
`write` calls have written everything.  Then reading the file yields all the objects but the last
8000 at most, unchanged and in order, and `parse` returns. -/
theorem pbf_crash_durable (lib : PbfLib) (c : PbfCodec) (cfg : PbfCfg) (hc : cfg.Exact)
    (compress : Bool) (ft : FileType) (g : String) (m : Meta)
    (h1 : m.bounds.bottomLeft.WF) (h2 : m.bounds.topRight.WF) (as : List OsmObj)
    (ho : ∀ o ∈ as, o.PbfOk) (hs : FewStrings cfg.metadata as) (hsort : SortedByType as)
    (ws : List Bytes) (hw : callsSoFar lib c cfg compress ft g m as = .ok ws)
    (hfit : ∀ bl, pbfBlocks lib cfg as = .ok bl →
      ∀ b ∈ fileBlobs c cfg ft g m bl, BlobFits c.toBlobCodec compress b.1 b.2)
    (os : OsWrite) (hos : ∀ i n, os i n = some n)
    (h : Stops) (hh : ∀ l, h l = false) (chunks : Nat → Nat) :
    ∃ j, as.length ≤ j + 8000 ∧
      let r := pbfParse c ft h ⟨(osWrites os 0 ws).1, chunks⟩
      objects r.1 = (as.take j).map (kept cfg.metadata cfg.addVisible) ∧ r.2 = .returned := by
  obtain ⟨w, d, cur, e, hi, f, _⟩ := writeAll_file (lib := lib) hc as (fileInv_new cfg)
    (⟨ho, hs⟩ : FileOk cfg as) (by simp)
  simp only [List.flatten_nil, List.nil_append] at f
  have hdisk : (osWrites os 0 ws).1 = ws.flatten := by
    have hn : NoShortWrites os := fun i n k hk => by rw [hos] at hk; cases hk; exact Nat.le_refl _
    obtain ⟨a, b⟩ := pbf_write_complete_partial os hn 0 ws
    apply b
    by_contra hcon
    rw [Bool.not_eq_false] at hcon
    obtain ⟨j, hj, hx⟩ := a.mp hcon
    rw [hos] at hx
    cases hx
  unfold callsSoFar at hw
  rw [e] at hw
  have hw' : storeBlobs c.toBlobCodec compress (fileBlobs c cfg ft g m w.out) = .ok ws.flatten := by
    rw [storeBlobs_calls]
    have hw2 : storeCalls c.toBlobCodec compress (fileBlobs c cfg ft g m w.out) = .ok ws := hw
    rw [hw2]; rfl
  have hpre : ∃ bl, pbfBlocks lib cfg as = .ok bl ∧ w.out <+: bl := by
    obtain ⟨bs, ch, e1, _, _⟩ := pbfBlocks_ok lib hc as (⟨ho, hs⟩ : FileOk cfg as)
    have hb := e1
    unfold pbfBlocks at hb
    simp only [e, bind, Except.bind] at hb
    refine ⟨bs, e1, ?_⟩
    unfold Writer.final at hb
    split at hb
    · cases hb
    · rename_i w' hf
      cases hb
      split at hf
      · obtain ⟨b, rfl, _⟩ := store_eq hf
        exact List.prefix_append _ _
      · cases hf; exact List.prefix_rfl
  have hr : ∀ b ∈ w.out, b.InRange := fun b hb => by
    obtain ⟨_, _, hr⟩ := forall₂_left hi.blocks b hb
    exact hr.1
  obtain ⟨bl, hbl, hsub⟩ := hpre
  have hfit' : ∀ b ∈ fileBlobs c cfg ft g m w.out, BlobFits c.toBlobCodec compress b.1 b.2 := by
    intro b hb
    refine hfit bl hbl b ?_
    unfold fileBlobs at hb ⊢
    rcases List.mem_cons.mp hb with hb | hb
    · exact List.mem_cons.mpr (.inl hb)
    · obtain ⟨x, hx, rfl⟩ := List.mem_map.mp hb
      exact List.mem_cons.mpr (.inr (List.mem_map.mpr ⟨x, hsub.subset hx, rfl⟩))
  have hrb := blobs_roundtrip c.toBlobCodec compress _ _ hw' hfit' chunks
  refine ⟨d.flatten.length, ?_, ?_⟩
  · have := hi.max
    rw [← f]; simp; omega
  · rw [hdisk]
    unfold pbfParse
    rw [hrb]
    simp only [parseBlobs_file c cfg ft g m h1 h2 _ hr]
    have hsd : SortedByType d.flatten := by
      refine List.Pairwise.sublist ?_ hsort
      rw [← f]; exact List.sublist_append_left _ _
    rw [readBlocks_ok hi.blocks, regroup_chunks_sorted d hsd, no_stop _ _ h hh]
    simp only [Events.seq, List.append_nil]
    have oab : ∀ m a b, objects (afterAndBefore m a b) = [] := by
      intro m a b; cases a <;> cases b <;> rfl
    rw [show as.take d.flatten.length = d.flatten by rw [← f]; simp]
    simp only [objects_append, oab, List.append_nil, objects_seqCalls]
    simp [objects]

/-- The systems with room for a given number of bytes, counted over calls of fixed size: they meet
the hypothesis of `pbf_crash_partial`. -/
example : ShortThenFail (fun i n => if i < 3 then some n else if i = 3 then some 5 else none) := by
  intro i n k h hk j n' hj
  simp only at h
  split at h
  · cases h; omega
  · split at h
    · subst_vars
      simp only [show ¬ j < 3 by omega, show ¬ j = 3 by omega, if_false]
    · cases h

example : (osWrites (fun i n => if i < 1 then some n else if i = 1 then some 1 else none) 0
    [[1, 2], [3, 4], [5]]) = ([1, 2, 3], true) := by decide +kernel

end Osmium
