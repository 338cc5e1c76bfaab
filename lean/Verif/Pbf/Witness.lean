import Verif.Pbf.SkipProps
import Verif.Pbf.BuffersProps
import Verif.Pbf.FileProps

/-!
# Concrete cases for the theorems about PBF files

The theorems are applied to one file with objects of all types, so that all their hypotheses are met together.
There is nothing new from /repo in this module.
-/

namespace Osmium

open Spec

/-- The file in this module. (helper for statements and proofs, no counterpart in /repo) -/
private def wdata : Bytes :=
  (pbfFile demoLib demoPbfCodec (PbfCfg.default true) true .history "me" demoMeta demoObjs).toOption.getD []

private theorem ok_of_isOk {α : Type} {r : Res α} {d : α} (h : r.isOk = true) : r = .ok (r.toOption.getD d) := by
  cases r with
  | ok a => rfl
  | error e => cases h

private theorem w_file : pbfFile demoLib demoPbfCodec (PbfCfg.default true) true .history "me" demoMeta demoObjs = .ok wdata :=
  ok_of_isOk (by decide +kernel)

private theorem w_exact : (PbfCfg.default true).Exact := ⟨⟨1, rfl⟩, rfl⟩

private theorem w_ok : ∀ o ∈ demoObjs, o.PbfOk := by
  intro o ho
  simp only [demoObjs, List.mem_cons, List.not_mem_nil, or_false] at ho
  rcases ho with rfl | rfl | rfl
  · exact ⟨⟨⟨by decide, by decide, by decide, by decide, by decide⟩, by decide, by decide⟩, by decide,
      by decide, by decide⟩
  · exact ⟨⟨⟨by decide, by decide, by decide, by decide, by decide⟩, by decide, by decide⟩, by decide⟩
  · exact ⟨⟨⟨by decide, by decide, by decide, by decide, by decide⟩, by decide, by decide⟩, by decide⟩

private theorem w_few : FewStrings (PbfCfg.default true).metadata demoObjs :=
  fewStrings_of_total _ _ (le_trans (List.toFinset_card_le _) (by decide))

private theorem w_sorted : SortedByType demoObjs := by unfold SortedByType; decide

private theorem w_bl : demoMeta.bounds.bottomLeft.WF := ⟨by unfold InS32; decide, by unfold InS32; decide⟩

private theorem w_tr : demoMeta.bounds.topRight.WF := ⟨by unfold InS32; decide, by unfold InS32; decide⟩

private theorem w_fit : ∀ bs, pbfBlocks demoLib (PbfCfg.default true) demoObjs = .ok bs →
    ∀ b ∈ fileBlobs demoPbfCodec (PbfCfg.default true) .history "me" demoMeta bs,
      BlobFits demoPbfCodec.toBlobCodec true b.1 b.2 := by
  intro bs hbs
  have : bs = (pbfBlocks demoLib (PbfCfg.default true) demoObjs).toOption.getD [] := by rw [hbs]; rfl
  subst this
  exact blobsFit_spec (by decide +kernel)

/-- The file, cut off after any number of bytes. -/
example (k : Nat) (chunks : Nat → Nat) :=
  pbf_truncated demoLib demoPbfCodec (PbfCfg.default true) w_exact true .history "me" demoMeta w_bl w_tr demoObjs w_ok w_few
    w_sorted wdata w_file w_fit (fun _ => false) (fun _ => rfl) k chunks

/-- The file, read with the wrong type. -/
example (h : Stops) (chunks : Nat → Nat) : ∃ msg, pbfParse demoPbfCodec .osm h ⟨wdata, chunks⟩ = ([], .threw (.exn msg)) :=
  pbf_file_wrong_type demoLib demoPbfCodec (PbfCfg.default true) true .history .osm "me" demoMeta (.inr ⟨rfl, rfl⟩) w_bl w_tr
    demoObjs wdata w_file w_fit h chunks

/-- The file, read with a handler that skips relations. -/
example (chunks : Nat → Nat) :=
  pbf_skip_written (fun t => t == .relation) demoLib demoPbfCodec (PbfCfg.default true) w_exact true .history "me" demoMeta
    w_bl w_tr demoObjs (by decide) w_ok w_few w_sorted wdata w_file w_fit (fun _ => false) (fun _ => rfl) chunks

/-- The objects, written into blocks and read again. -/
example := pbf_roundtrip_sorted demoLib (PbfCfg.default true) w_exact demoObjs w_ok w_few w_sorted

example := pbf_roundtrip_calls demoLib (PbfCfg.default true) w_exact demoObjs w_ok w_few w_sorted

/-- Two nodes, one of them deleted, with negative ids and with tags. (helper for statements and proofs, no counterpart in /repo) -/
private def wnodes : List Node :=
  [⟨⟨17, 3, 5, 1300000000, 0, 4, "me", true, [⟨"k", "v"⟩]⟩, ⟨-1800000000, 899999999⟩⟩,
   ⟨⟨-4, 1, 9, 0, 0, 7, "", false, []⟩, ⟨3, -5⟩⟩]

/-- Nodes in the dense form keep everything. -/
example : ∃ bs, pbfBlocks demoLib (PbfCfg.default true) (wnodes.map .node) = .ok bs ∧ ∀ m,
    (readBlocks m .unknown bs).1.fail = none ∧
    objects (readBlocks m .unknown bs).1.calls = wnodes.map .node := by
  refine dense_nodes_survive demoLib (PbfCfg.default true) w_exact rfl rfl rfl wnodes ?_ (by decide)
    (fewStrings_of_total _ _ (le_trans (List.toFinset_card_le _) (by decide)))
  intro o ho
  simp only [wnodes, List.mem_cons, List.not_mem_nil, or_false] at ho
  rcases ho with rfl | rfl
  all_goals exact ⟨⟨⟨by decide, by decide, by decide, by decide, by decide⟩, by decide, by decide⟩, by decide,
      by decide, by decide⟩

/-- Conversion to `uint16_t`: the value modulo 2¹⁶. (`string_id_t` in utils/stringtable.hpp 57) -/
theorem wrapU16_spec (x : Int) : 0 ≤ wrapU16 x ∧ wrapU16 x < 2 ^ 16 ∧ ∃ k, x = wrapU16 x + k * 2 ^ 16 := by
  unfold wrapU16
  exact ⟨by omega, by omega, x / 65536, by omega⟩

/-! ### Blobs -/

private theorem w_blobs (z : Bool) : ∀ b ∈ demoBlobs, BlobFits demoCodec z b.1 b.2 := by
  intro b hb
  simp only [demoBlobs, List.mem_cons, List.not_mem_nil, or_false] at hb
  refine ⟨by rcases hb with rfl | rfl <;> decide, ?_⟩
  intro l h b' e
  cases z <;> rcases hb with rfl | rfl <;> cases e <;> decide +kernel

/-- A file with two blobs and a part of a third one. -/
example (k : Nat) (hk : k < 23) (chunks : Nat → Nat) : ∃ (pre : Bytes) (ws : List Bytes), storeBlobs demoCodec true demoBlobs = .ok pre ∧
    (4 ≤ k → ∃ msg, (readBlobs demoCodec ⟨pre ++ ws.flatten.take k, chunks⟩).2 = some (.exn msg)) ∧
    (readBlobs demoCodec ⟨pre ++ ws.flatten.take k, chunks⟩).1 = demoBlobs := by
  have h := blobs_truncated_partial demoCodec true demoBlobs "OSMData" [4, 5, 6, 7] _ _ k rfl rfl (w_blobs true)
    (w_blobs true _ (.tail _ (.head _))) (lt_of_lt_of_le hk (by decide +kernel)) chunks
  exact ⟨_, _, rfl, h.2.2, h.1⟩

/-- A blob that says it has 32 MiB and one byte. -/
example (rest : Bytes) (chunks : Nat → Nat) :=
  pbf_large_blob_refused demoCodec (be32 (demoCodec.encHdr ⟨"OSMData", 33554433⟩).length) _ rest ⟨_, _, _, _, rfl, by decide +kernel⟩ ⟨"OSMData", 33554433⟩
    (by decide +kernel : demoCodec.decHdr (demoCodec.encHdr ⟨"OSMData", 33554433⟩) = _) (by decide +kernel)
    (.inr (by decide)) chunks

/-- A compressed blob within the limits, followed by anything. -/
example (rest : Bytes) (chunks : Nat → Nat) :=
  pbf_within_limits demoCodec (be32 (claimHead 3).length) (claimHead 3) (claimBlob 3) rest ⟨_, _, _, _, rfl, by decide +kernel⟩
    "OSMData" (by decide +kernel) (by decide +kernel) (by decide +kernel) ⟨none, 3, some [1, 2, 3], none⟩ (by decide +kernel)
    [3, 2, 1] (.inr ⟨rfl, [1, 2, 3], rfl, rfl, by decide, by decide +kernel⟩) chunks

end Osmium
