import Verif.Common.Num
import Verif.Common.Res
/-
Model of the blob layer of input/pbf.hpp and output/pbf.hpp: how typed, possibly compressed blobs are
framed in a file, and how a file is cut into blobs again with `read(2)` calls that return any number
of bytes.

The protobuf (de)serialisation of `BlobHeader` and `Blob` and zlib are library code: they are a
parameter (`BlobCodec`) with the laws a user of these libraries relies on.
-/
namespace Osmium

/-- `std::string` and `char*` with length, output/pbf.hpp 300-356. -/
abbrev Bytes := List UInt8

/-- `OSMPBF::Blob`. (used in output/pbf.hpp 310-329, input/pbf.hpp 443-470) -/
structure BlobMsg where
  raw : Option Bytes
  rawSize : Int
  zlib : Option Bytes
  lzma : Option Bytes
deriving DecidableEq, Repr

/-- `OSMPBF::BlobHeader` (without the `indexdata` field, which is not used). (used in
output/pbf.hpp 331-342, input/pbf.hpp 420-424) -/
structure BlobHdr where
  type : String
  datasize : Int
deriving DecidableEq, Repr

/-- The library functions used for blobs, and what is assumed about them: what has been serialised
is parsed to the same message (the `int32` fields being in range), and what has been compressed is
uncompressed to the same bytes if the buffer is large enough.  `deflate` may fail. (called in output/pbf.hpp 257-350
and input/pbf.hpp 420-455) -/
structure BlobCodec where
  encHdr : BlobHdr → Bytes
  decHdr : Bytes → Option BlobHdr
  hdr_law : ∀ h, InS32 h.datasize → decHdr (encHdr h) = some h
  encBlob : BlobMsg → Bytes
  decBlob : Bytes → Option BlobMsg
  blob_law : ∀ b, InS32 b.rawSize → decBlob (encBlob b) = some b
  deflate : Bytes → Option Bytes
  inflate : (buffer : Nat) → Bytes → Option Bytes
  zlib_law : ∀ d z n, deflate d = some z → d.length ≤ n → inflate n z = some d

/-- `OSMPBF::max_blob_header_size`, `OSMPBF::max_uncompressed_blob_size` (osmpbf.h). (used in
input/pbf.hpp 405) -/
def maxBlobHeaderSize : Int := 65536
/-- Used in input/pbf.hpp 54-55 and 430: `OSMPBF::max_uncompressed_blob_size` (osmpbf.h). -/
def maxBlobSize : Int := 33554432

/-! ### Writing -/

/-- `htonl` and the four bytes written. (output/pbf.hpp 346-349) -/
def be32 (n : Nat) : Bytes :=
  [UInt8.ofNat (n / 16777216), UInt8.ofNat (n / 65536), UInt8.ofNat (n / 256), UInt8.ofNat n]

/-- output/pbf.hpp:299-358 `store_blob`: the bytes passed to the three `write` calls.  The exceptions
thrown by `zlib_compress` (247-290) are one failure. -/
def storeBlob (c : BlobCodec) (compress : Bool) (type : String) (data : Bytes) : Res (List Bytes) := do
  let blob ← if compress then
      match c.deflate data with
      | none => .error (.exn "failed to deflate zlib stream")
      | some z => .ok { raw := none, rawSize := wrapS32 data.length, zlib := some z, lzma := none }
    else .ok { raw := some data, rawSize := wrapS32 data.length, zlib := none, lzma := none }
  let body := c.encBlob blob
  let head := c.encHdr ⟨type, wrapS32 body.length⟩
  return [be32 (head.length % 4294967296), head, body]

/-- The `write` calls on a file that can take all bytes. (output/pbf.hpp 349-357) -/
def storeBlobs (c : BlobCodec) (compress : Bool) : List (String × Bytes) → Res Bytes
  | [] => .ok []
  | (t, d) :: bs => do
    let ws ← storeBlob c compress t d
    let rest ← storeBlobs c compress bs
    return ws.flatten ++ rest

/-! ### Reading -/

/-- The rest of the file, and how many bytes the following `read` calls want to return.  (Calls that
fail with an error are in Pbf/ReadErrors: the reader throws an exception then, C130.) (input/pbf.hpp 391-445) -/
structure Input where
  data : Bytes
  chunks : Nat → Nat

/-- The number of bytes the next `read` call asking for `n` bytes returns: at least one unless the
file is at its end, at most `n`. (the operating system, called in input/pbf.hpp 395, 413, 437) -/
def Input.got (s : Input) (n : Nat) : Nat := min (min n s.data.length) (max 1 (s.chunks 0))

/-- `::read(fd, buf, n)`. (called in input/pbf.hpp 395, 413, 437) -/
def Input.read (s : Input) (n : Nat) : Bytes × Input :=
  (s.data.take (s.got n), ⟨s.data.drop (s.got n), fun i => s.chunks (i + 1)⟩)

theorem Input.got_le (s : Input) (n : Nat) : s.got n ≤ n := by unfold Input.got; omega

/-- input/pbf.hpp:394-402, 412-418, 436-442: the loops that read `n` bytes.  The result is shorter
if the end of the file is reached. -/
def readN (n : Nat) (s : Input) : Bytes × Input :=
  if n = 0 then ([], s)
  else if s.got n = 0 then ([], s)
  else
    let (a, s1) := s.read n
    let (b, s2) := readN (n - s.got n) s1
    (a ++ b, s2)
termination_by n
decreasing_by omega

/-- input/pbf.hpp:382-384 `convert_from_network_byte_order` (a byte above 127 shifted into the sign
bit gives a negative number). -/
def fromBE (b : Bytes) : Int := wrapS32 (b.foldl (fun n x => n * 256 + x.toNat) 0)

/-- input/pbf.hpp:391-424 `read_blob_header`: `none` is the end of the file. -/
def readBlobHeader (c : BlobCodec) (s : Input) : Res (Option BlobHdr × Input) :=
  let (b, s1) := readN 4 s
  if b.length < 4 then .ok (none, s1)
  else
    let size := fromBE b
    if size > maxBlobHeaderSize ∨ size < 0 then .error (.exn "BlobHeader size invalid")
    else
      let (h, s2) := readN size.toNat s1
      if (h.length : Int) < size then .error (.exn "failed to read BlobHeader")
      else match c.decHdr h with
        | none => .error (.exn "failed to parse BlobHeader")
        | some h => .ok (some h, s2)

/-- input/pbf.hpp:444-460 the second half of `read_blob`: take the data out of the blob. -/
def unpackBlob (c : BlobCodec) (m : BlobMsg) : Res Bytes :=
  match m.raw with
  | some d => .ok d
  | none =>
    match m.zlib with
    | some z =>
      -- the conversion of a negative `raw_size` to `unsigned long` gives a large number
      if m.rawSize < 0 ∨ m.rawSize > maxBlobSize then .error .assertion
      else match c.inflate m.rawSize.toNat z with
        | none => .error (.exn "zlib error")
        | some d => if (d.length : Int) ≠ m.rawSize then .error (.exn "zlib error") else .ok d
    | none =>
      match m.lzma with
      | some _ => .error (.exn "lzma blobs not implemented")
      | none => .error (.exn "Blob contains no data")

/-- input/pbf.hpp:429-461 `read_blob`. -/
def readBlob (c : BlobCodec) (size : Int) (s : Input) : Res (Bytes × Input) :=
  if size < 0 ∨ size > maxBlobSize then .error (.exn "invalid blob size")
  else
    let (b, s1) := readN size.toNat s
    if (b.length : Int) < size then .error (.exn "failed to read blob")
    else match c.decBlob b with
      | none => .error (.exn "failed to parse blob")
      | some m => do return (← unpackBlob c m, s1)

theorem readN_data (n : Nat) (s : Input) :
    (readN n s).1 = s.data.take n ∧ (readN n s).2.data = s.data.drop n := by
  induction n using Nat.strongRecOn generalizing s with
  | ind n ih =>
    unfold readN
    split
    · rename_i h; subst h; simp
    · rename_i hn
      split
      · rename_i h0
        have : s.data = [] := by
          rw [← List.length_eq_zero_iff]
          unfold Input.got at h0; omega
        simp [this]
      · rename_i h0
        have hg := s.got_le n
        have := ih (n - s.got n) (by omega) (s.read n).2
        simp only [Input.read, List.drop_drop] at this ⊢
        rw [this.1, this.2]
        constructor
        · rw [show List.take n s.data = List.take (s.got n + (n - s.got n)) s.data by congr 1; omega,
            List.take_add]
        · congr 1; omega

theorem readBlobHeader_rest (c : BlobCodec) (s s' : Input) (h : BlobHdr)
    (e : readBlobHeader c s = .ok (some h, s')) : s'.data.length < s.data.length := by
  unfold readBlobHeader at e
  have h4 := readN_data 4 s
  generalize hr : readN 4 s = r at e h4
  obtain ⟨b, s1⟩ := r
  simp only at e h4
  split at e
  · cases e
  · rename_i hb
    rw [h4.1, List.length_take] at hb
    split at e
    · cases e
    · have h5 := readN_data (fromBE b).toNat s1
      generalize readN (fromBE b).toNat s1 = r2 at e h5
      obtain ⟨h', s2⟩ := r2
      simp only at e h5
      split at e
      · cases e
      · split at e
        · cases e
        · cases e
          rw [h5.2, h4.2]
          simp only [List.length_drop]; omega

theorem readBlob_rest (c : BlobCodec) (n : Int) (s s' : Input) (d : Bytes)
    (e : readBlob c n s = .ok (d, s')) : s'.data.length ≤ s.data.length := by
  unfold readBlob at e
  have h4 := readN_data n.toNat s
  generalize hr : readN n.toNat s = r at e h4
  obtain ⟨b, s1⟩ := r
  simp only at e h4
  split at e
  · cases e
  · split at e
    · cases e
    · split at e
      · cases e
      · rename_i m _
        cases hu : unpackBlob c m with
        | error x => rw [hu] at e; cases e
        | ok y =>
          rw [hu] at e; cases e
          rw [h4.2]; simp

/-- input/pbf.hpp:90-91 the loop over the blobs of a file: the blobs read (type and data) and the
failure at the end, if any. -/
def readBlobs (c : BlobCodec) (s : Input) : List (String × Bytes) × Option Fail :=
  match hh : readBlobHeader c s with
  | .error e => ([], some e)
  | .ok (none, _) => ([], none)
  | .ok (some h, s1) =>
    match hb : readBlob c h.datasize s1 with
    | .error e => ([], some e)
    | .ok (d, s2) =>
      let (bs, f) := readBlobs c s2
      ((h.type, d) :: bs, f)
termination_by s.data.length
decreasing_by
  have h1 := readBlobHeader_rest c s _ _ hh
  have h2 := readBlob_rest c _ _ _ _ hb
  omega

end Osmium
