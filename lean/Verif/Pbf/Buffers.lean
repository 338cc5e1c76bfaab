import Verif.Pbf.BlobProps

/-
C100: the buffers of the PBF reader, and what `read` and `uncompress` may store in them.
-/
namespace Osmium

/-- The buffers: `size_in_network_byte_order`, `m_input_buffer`, `m_unpack_buffer`. (input/pbf.hpp 54-55, 392) -/
inductive PbfBuf
  | length
  | input
  | unpack
deriving DecidableEq, Repr

/-- A call that may store up to `count` bytes in a buffer, beginning at `offset`. (input/pbf.hpp 395, 413, 437: `read`;
452: `uncompress`) -/
structure BufWrite where
  buf : PbfBuf
  offset : Nat
  count : Nat
deriving DecidableEq, Repr

/-- input/pbf.hpp 394-402, 412-418, 436-442: the `read` calls of the loops for `n` bytes.  (The loops are those of `readN`.) -/
def readNWrites (b : PbfBuf) (offset n : Nat) (s : Input) : List BufWrite :=
  if n = 0 then []
  else if s.got n = 0 then [⟨b, offset, n⟩]
  else ⟨b, offset, n⟩ :: readNWrites b (offset + s.got n) (n - s.got n) (s.read n).2
termination_by n
decreasing_by omega

/-- input/pbf.hpp 391-424 `read_blob_header`. -/
def headerWrites (s : Input) : List BufWrite :=
  readNWrites .length 0 4 s ++
    if (readN 4 s).1.length < 4 then []
    else
      let size := fromBE (readN 4 s).1
      if size > maxBlobHeaderSize ∨ size < 0 then []
      else readNWrites .input 0 size.toNat (readN 4 s).2

/-- input/pbf.hpp 444-460: the second half of `read_blob`.  `uncompress` is told that the buffer has `raw_size` bytes;
`asserts` says whether the program was compiled with assertions. -/
def unpackWrites (asserts : Bool) (m : BlobMsg) : List BufWrite :=
  match m.raw, m.zlib with
  | none, some _ =>
    let rawSize := (m.rawSize % 18446744073709551616).toNat
    if asserts ∧ (rawSize : Int) > maxBlobSize then [] else [⟨.unpack, 0, rawSize⟩]
  | _, _ => []

/-- input/pbf.hpp 429-461 `read_blob`. -/
def blobWrites (c : BlobCodec) (asserts : Bool) (size : Int) (s : Input) : List BufWrite :=
  if size < 0 ∨ size > maxBlobSize then []
  else
    readNWrites .input 0 size.toNat s ++
      if ((readN size.toNat s).1.length : Int) < size then []
      else match c.decBlob (readN size.toNat s).1 with
        | none => []
        | some m => unpackWrites asserts m

/-- input/pbf.hpp 90-91: the loop over the blobs of a file. -/
def fileWrites (c : BlobCodec) (asserts : Bool) (s : Input) : List BufWrite :=
  headerWrites s ++
    match hh : readBlobHeader c s with
    | .error _ => []
    | .ok (none, _) => []
    | .ok (some h, s1) =>
      blobWrites c asserts h.datasize s1 ++
        match hb : readBlob c h.datasize s1 with
        | .error _ => []
        | .ok (_, s2) => fileWrites c asserts s2
termination_by s.data.length
decreasing_by
  have h1 := readBlobHeader_rest c s s1 h hh
  have h2 := readBlob_rest c h.datasize s1 s2 _ hb
  omega

end Osmium
