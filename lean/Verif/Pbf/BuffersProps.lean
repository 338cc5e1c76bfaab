import Verif.Pbf.Buffers

/-
C100: whatever the bytes of a PBF file, the reader stores nothing outside of its buffers, and lengths above
the limits of the file format are refused.
-/
namespace Osmium

namespace Spec

/-- The sizes of the buffers in bytes. -/
def bufferSize : PbfBuf → Nat
  | .length => 4
  | .input => 32 * 1024 * 1024
  | .unpack => 32 * 1024 * 1024

/-- The call stays inside the buffer. -/
def InBuffer (w : BufWrite) : Prop := w.offset + w.count ≤ bufferSize w.buf

/-- The four bytes of a number below 2^32, highest first. -/
def FourBytes (b : Bytes) (n : Nat) : Prop :=
  ∃ a3 a2 a1 a0 : UInt8, b = [a3, a2, a1, a0] ∧
    n = ((a3.toNat * 256 + a2.toNat) * 256 + a1.toNat) * 256 + a0.toNat

end Spec

open Spec

theorem readNWrites_end (b : PbfBuf) (offset n : Nat) (s : Input) :
    ∀ w ∈ readNWrites b offset n s, w.buf = b ∧ w.offset + w.count = offset + n := by
  induction n using Nat.strongRecOn generalizing offset s with
  | ind n ih =>
    intro w hw
    unfold readNWrites at hw
    split at hw
    · cases hw
    · split at hw
      · simp only [List.mem_singleton] at hw
        subst hw; exact ⟨rfl, rfl⟩
      · rename_i h0
        rcases List.mem_cons.1 hw with rfl | hw
        · exact ⟨rfl, rfl⟩
        · have hg := s.got_le n
          obtain ⟨h1, h2⟩ := ih (n - s.got n) (by omega) _ _ w hw
          exact ⟨h1, by omega⟩

theorem headerWrites_in (s : Input) : ∀ w ∈ headerWrites s, InBuffer w := by
  intro w hw
  rcases List.mem_append.1 hw with hw | hw
  · obtain ⟨h1, h2⟩ := readNWrites_end _ _ _ _ w hw
    simp only [InBuffer, h1, h2, bufferSize]; omega
  · split at hw
    · cases hw
    · simp only at hw
      split at hw
      · cases hw
      · rename_i hl
        obtain ⟨h1, h2⟩ := readNWrites_end _ _ _ _ w hw
        simp only [maxBlobHeaderSize, not_or, not_lt, Int.not_lt] at hl
        simp only [InBuffer, h1, h2, bufferSize]; omega

theorem blobWrites_in (c : BlobCodec) (size : Int) (s : Input) : ∀ w ∈ blobWrites c true size s, InBuffer w := by
  intro w hw
  unfold blobWrites at hw
  split at hw
  · cases hw
  · rename_i hl
    simp only [maxBlobSize, not_or, Int.not_lt] at hl
    rcases List.mem_append.1 hw with hw | hw
    · obtain ⟨h1, h2⟩ := readNWrites_end _ _ _ _ w hw
      simp only [InBuffer, h1, h2, bufferSize]; omega
    · split at hw
      · cases hw
      · split at hw
        · cases hw
        · unfold unpackWrites at hw
          split at hw
          · simp only [true_and] at hw
            split at hw
            · cases hw
            · rename_i hm
              simp only [List.mem_singleton] at hw
              subst hw
              simp only [maxBlobSize] at hm
              simp only [InBuffer, bufferSize]; omega
          · cases hw

/-- C100 (partial: the program is compiled with assertions): whatever the file contains, whatever the protobuf
library makes of it and however many bytes each `read` call returns, everything is stored inside the buffers. -/
theorem pbf_buffers_partial (c : BlobCodec) (s : Input) : ∀ w ∈ fileWrites c true s, InBuffer w := by
  induction h : s.data.length using Nat.strongRecOn generalizing s with
  | ind n ih =>
    intro w hw
    rw [fileWrites] at hw
    rcases List.mem_append.1 hw with hw | hw
    · exact headerWrites_in s w hw
    · split at hw
      · cases hw
      · cases hw
      · rename_i hd s1 hh
        rcases List.mem_append.1 hw with hw | hw
        · exact blobWrites_in c _ _ w hw
        · split at hw
          · cases hw
          · rename_i d s2 hb
            have h1 := readBlobHeader_rest c s s1 hd hh
            have h2 := readBlob_rest c hd.datasize s1 s2 _ hb
            exact ih _ (by omega) s2 rfl w hw

theorem fromBE_four {b : Bytes} {n : Nat} (h : FourBytes b n) :
    b.length = 4 ∧ fromBE b = if n < 2147483648 then (n : Int) else (n : Int) - 4294967296 := by
  obtain ⟨a3, a2, a1, a0, rfl, rfl⟩ := h
  refine ⟨rfl, ?_⟩
  have h3 := a3.toNat_lt
  have h2 := a2.toNat_lt
  have h1 := a1.toNat_lt
  have h0 := a0.toNat_lt
  simp only [fromBE, List.foldl, wrapS32]
  split <;> omega

/-- C100, the limit for headers: a blob header of more than 64 KiB is refused, whatever follows. -/
theorem pbf_large_header_refused (c : BlobCodec) (b rest : Bytes) (n : Nat) (hb : FourBytes b n)
    (hn : 64 * 1024 < n) (chunks : Nat → Nat) :
    readBlobs c ⟨b ++ rest, chunks⟩ = ([], some (.exn "BlobHeader size invalid")) := by
  obtain ⟨hl, hv⟩ := fromBE_four hb
  have hlt : n < 4294967296 := by
    obtain ⟨a3, a2, a1, a0, -, rfl⟩ := hb
    have h3 := a3.toNat_lt
    have h2 := a2.toNat_lt
    have h1 := a1.toNat_lt
    have h0 := a0.toNat_lt
    omega
  have r1 := readN_data 4 ⟨b ++ rest, chunks⟩
  rw [List.take_left' hl] at r1
  have hh : readBlobHeader c ⟨b ++ rest, chunks⟩ = .error (.exn "BlobHeader size invalid") := by
    unfold readBlobHeader
    simp only [r1.1, hl, hv]
    rw [if_neg (by omega), if_pos]
    unfold maxBlobHeaderSize
    split <;> omega
  rw [readBlobs]
  split
  · rename_i e he; rw [hh] at he; cases he; rfl
  · rename_i he; rw [hh] at he; cases he
  · rename_i he; rw [hh] at he; cases he

theorem Input.eq_of_data {s : Input} {d : Bytes} (h : s.data = d) : s = ⟨d, s.chunks⟩ := by subst h; rfl

theorem readBlobHeader_ok (c : BlobCodec) (b head rest : Bytes) (hb : FourBytes b head.length) (h : BlobHdr)
    (hd : c.decHdr head = some h) (hn : head.length ≤ 64 * 1024) (chunks : Nat → Nat) :
    ∃ ch, readBlobHeader c ⟨b ++ head ++ rest, chunks⟩ = .ok (some h, ⟨rest, ch⟩) := by
  obtain ⟨hl, hv⟩ := fromBE_four hb
  rw [if_pos (by omega)] at hv
  have r1 := readN_data 4 ⟨b ++ head ++ rest, chunks⟩
  rw [List.append_assoc, List.take_left' hl, List.drop_left' hl] at r1
  rw [List.append_assoc]
  have r2 := readN_data head.length (readN 4 ⟨b ++ (head ++ rest), chunks⟩).2
  rw [r1.2, List.take_left' rfl, List.drop_left' rfl] at r2
  refine ⟨(readN head.length (readN 4 ⟨b ++ (head ++ rest), chunks⟩).2).2.chunks, ?_⟩
  unfold readBlobHeader
  simp only [r1.1, hl, hv]
  rw [if_neg (by omega), if_neg (by unfold maxBlobHeaderSize; omega)]
  have : ((head.length : Int)).toNat = head.length := by omega
  rw [this]
  simp only [r2.1, hd]
  rw [if_neg (by omega)]
  exact congrArg (fun x => Except.ok (some h, x)) (Input.eq_of_data r2.2)

/-- C100, the limit for blobs: after a header of at most 64 KiB that announces a blob of a negative length or of more
than 32 MiB, the file is refused, whatever follows. -/
theorem pbf_large_blob_refused (c : BlobCodec) (b head rest : Bytes) (hb : FourBytes b head.length) (h : BlobHdr)
    (hd : c.decHdr head = some h) (hn : head.length ≤ 64 * 1024)
    (hs : h.datasize < 0 ∨ 32 * 1024 * 1024 < h.datasize) (chunks : Nat → Nat) :
    readBlobs c ⟨b ++ head ++ rest, chunks⟩ = ([], some (.exn "invalid blob size")) := by
  obtain ⟨ch, hh⟩ := readBlobHeader_ok c b head rest hb h hd hn chunks
  have hbl : readBlob c h.datasize ⟨rest, ch⟩ = .error (.exn "invalid blob size") := by
    unfold readBlob
    rw [if_pos (by unfold maxBlobSize; omega)]
  rw [readBlobs]
  split
  · rename_i e he; rw [hh] at he; cases he
  · rename_i he; rw [hh] at he; cases he
  · rename_i h' s' he
    rw [hh] at he; cases he
    split
    · rename_i e he; rw [hbl] at he; cases he; rfl
    · rename_i he; rw [hbl] at he; cases he

/-- C100, up to the limits everything is read: the first blob of the file is one with a header of at most 64 KiB and
a body of at most 32 MiB, and the rest of the file is read as if it stood alone. -/
theorem pbf_within_limits (c : BlobCodec) (b head body rest : Bytes) (hb : FourBytes b head.length) (t : String)
    (hd : c.decHdr head = some ⟨t, body.length⟩) (hn : head.length ≤ 64 * 1024)
    (hs : body.length ≤ 32 * 1024 * 1024) (m : BlobMsg) (hm : c.decBlob body = some m) (d : Bytes)
    (hu : m.raw = some d ∨ m.raw = none ∧ ∃ z, m.zlib = some z ∧ m.rawSize = d.length ∧
      d.length ≤ 32 * 1024 * 1024 ∧ c.inflate d.length z = some d) (chunks : Nat → Nat) :
    ∃ ch, readBlobs c ⟨b ++ head ++ body ++ rest, chunks⟩ =
      ((t, d) :: (readBlobs c ⟨rest, ch⟩).1, (readBlobs c ⟨rest, ch⟩).2) := by
  rw [List.append_assoc _ body rest]
  obtain ⟨ch, hh⟩ := readBlobHeader_ok c b head (body ++ rest) hb _ hd hn chunks
  have r1 := readN_data body.length ⟨body ++ rest, ch⟩
  rw [List.take_left' rfl, List.drop_left' rfl] at r1
  have hbl : readBlob c body.length ⟨body ++ rest, ch⟩ = .ok (d, ⟨rest, (readN body.length ⟨body ++ rest, ch⟩).2.chunks⟩) := by
    unfold readBlob
    rw [if_neg (by unfold maxBlobSize; omega)]
    have : ((body.length : Int)).toNat = body.length := by omega
    rw [this]
    simp only [r1.1, hm]
    rw [if_neg (by omega)]
    have hun : unpackBlob c m = .ok d := by
      unfold unpackBlob
      rcases hu with hu | ⟨h1, z, h2, h3, h4, h5⟩
      · rw [hu]
      · rw [h1, h2]
        simp only [h3]
        rw [if_neg (by unfold maxBlobSize; omega)]
        have : ((d.length : Int)).toNat = d.length := by omega
        rw [this, h5]
        simp
    rw [hun]
    show Except.ok _ = _
    exact congrArg (fun x => Except.ok (d, x)) (Input.eq_of_data r1.2)
  refine ⟨(readN body.length ⟨body ++ rest, ch⟩).2.chunks, ?_⟩
  conv => lhs; rw [readBlobs]
  split
  · rename_i e he; rw [hh] at he; cases he
  · rename_i he; rw [hh] at he; cases he
  · rename_i h' s' he
    rw [hh] at he; cases he
    split
    · rename_i e he; rw [hbl] at he; cases he
    · rename_i he
      rw [hbl] at he; cases he
      rfl

/-- A compressed blob that claims to be `n` bytes long, and its header. -/
def claimBlob (n : Int) : Bytes := demoCodec.encBlob ⟨none, n, some [1, 2, 3], none⟩
def claimHead (n : Int) : Bytes := demoCodec.encHdr ⟨"OSMData", (claimBlob n).length⟩

theorem claim_written (n : Int) (hn : InS32 n) (h1 : (claimBlob n).length < 1000) (h2 : (claimHead n).length < 1000)
    (chunks : Nat → Nat) :
    ⟨.unpack, 0, (n % 18446744073709551616).toNat⟩ ∈
      fileWrites demoCodec false ⟨be32 (claimHead n).length ++ claimHead n ++ claimBlob n, chunks⟩ := by
  have hb : FourBytes (be32 (claimHead n).length) (claimHead n).length := by
    refine ⟨_, _, _, _, rfl, ?_⟩
    simp only [UInt8.toNat_ofNat']
    omega
  obtain ⟨ch, hh⟩ := readBlobHeader_ok demoCodec _ (claimHead n) (claimBlob n) hb _
    (demoCodec.hdr_law _ (by simp only [InS32]; omega)) (by omega) chunks
  have r1 := readN_data (claimBlob n).length ⟨claimBlob n, ch⟩
  simp only [List.take_length, List.drop_length] at r1
  rw [fileWrites]
  refine List.mem_append_right _ ?_
  split
  · rename_i e he; rw [hh] at he; cases he
  · rename_i he; rw [hh] at he; cases he
  · rename_i h' s' he
    rw [hh] at he; cases he
    refine List.mem_append_left _ ?_
    unfold blobWrites
    simp only
    rw [if_neg (by unfold maxBlobSize; omega)]
    refine List.mem_append_right _ ?_
    have : ((claimBlob n).length : Int).toNat = (claimBlob n).length := by omega
    rw [this, r1.1, if_neg (by omega), claimBlob, demoCodec.blob_law _ hn]
    simp [unpackWrites]

/-- C100 fails if the program is compiled without assertions: a file of less than a hundred bytes makes `uncompress`
believe that the buffer has one byte more than it has, and another one, with a negative number, that it has 2^64 - 1. -/
theorem pbf_buffers_need_assertions :
    (∃ data : Bytes, data.length < 100 ∧ ∀ chunks, ⟨.unpack, 0, 32 * 1024 * 1024 + 1⟩ ∈ fileWrites demoCodec false ⟨data, chunks⟩) ∧
    (∃ data : Bytes, data.length < 100 ∧ ∀ chunks, ⟨.unpack, 0, 18446744073709551615⟩ ∈ fileWrites demoCodec false ⟨data, chunks⟩) := by
  refine ⟨⟨_, ?_, claim_written 33554433 (by decide) (by decide +kernel) (by decide +kernel)⟩,
    ⟨_, ?_, claim_written (-1) (by decide) (by decide +kernel) (by decide +kernel)⟩⟩
  all_goals decide +kernel

/-- With assertions such a file makes the program stop at the assertion; nothing is stored in this buffer. -/
example (chunks : Nat → Nat) : ∀ w ∈ fileWrites demoCodec true ⟨be32 (claimHead (-1)).length ++ claimHead (-1) ++ claimBlob (-1), chunks⟩,
    InBuffer w := pbf_buffers_partial _ _

/-- The hypotheses can be met: a number above the limit, and a blob within the limits that is compressed. -/
example : FourBytes [0, 1, 0, 1] 65537 ∧ FourBytes [255, 255, 255, 255] 4294967295 ∧ FourBytes [0, 1, 0, 0] 65536 :=
  ⟨⟨_, _, _, _, rfl, by decide⟩, ⟨_, _, _, _, rfl, by decide⟩, ⟨_, _, _, _, rfl, by decide⟩⟩

example : FourBytes (be32 (claimHead 3).length) (claimHead 3).length ∧
    demoCodec.decHdr (claimHead 3) = some ⟨"OSMData", (claimBlob 3).length⟩ ∧
    demoCodec.decBlob (claimBlob 3) = some ⟨none, 3, some [1, 2, 3], none⟩ ∧
    demoCodec.inflate 3 [1, 2, 3] = some [3, 2, 1] ∧ (claimHead 3).length ≤ 64 * 1024 := by
  refine ⟨⟨_, _, _, _, rfl, by decide +kernel⟩, ?_, ?_, ?_, ?_⟩ <;> decide +kernel

end Osmium
