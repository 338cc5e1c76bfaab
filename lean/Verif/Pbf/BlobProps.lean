import Verif.Pbf.Blob
import Verif.Common.Ser
import Mathlib.Order.Basic
/-
C18: blob framing.
-/
namespace Osmium

theorem fromBE_be32 (n : Nat) (h : n < 2147483648) : fromBE (be32 n) = n := by
  have e : ∀ m : Nat, (UInt8.ofNat m).toNat = m % 256 := fun m => by rw [UInt8.toNat_ofNat']
  simp only [fromBE, be32, List.foldl_cons, List.foldl_nil, e]
  unfold wrapS32
  omega

/-- The sizes of what is written for a blob do not exceed the limits of the format. -/
structure BlobFits (c : BlobCodec) (compress : Bool) (t : String) (d : Bytes) : Prop where
  data : d.length ≤ 33554432
  /-- the serialised blob and its header, whatever `storeBlob` passed to `write` -/
  written : ∀ l h b, storeBlob c compress t d = .ok [l, h, b] → h.length ≤ 65536 ∧ b.length ≤ 33554432

/-- The shape of a frame. -/
theorem storeBlob_shape {c : BlobCodec} {z : Bool} {t : String} {d : Bytes} {ws : List Bytes}
    (h : storeBlob c z t d = .ok ws) (hf : BlobFits c z t d) :
    ∃ head body m, ws = [be32 head.length, head, body] ∧ head.length ≤ 65536 ∧
      body.length ≤ 33554432 ∧ c.decHdr head = some ⟨t, body.length⟩ ∧
      c.decBlob body = some m ∧ unpackBlob c m = .ok d := by
  have hd := hf.data
  have hw : wrapS32 (d.length : Int) = d.length := by unfold wrapS32; omega
  have key : ∃ m : BlobMsg, InS32 m.rawSize ∧ unpackBlob c m = .ok d ∧
      ws = [be32 ((c.encHdr ⟨t, wrapS32 (c.encBlob m).length⟩).length % 4294967296),
        c.encHdr ⟨t, wrapS32 (c.encBlob m).length⟩, c.encBlob m] := by
    unfold storeBlob at h
    have hr : InS32 (d.length : Int) := by unfold InS32; omega
    cases z with
    | false =>
      cases h
      exact ⟨_, by simpa [hw] using hr, rfl, rfl⟩
    | true =>
      simp only [if_true] at h
      cases hz : c.deflate d with
      | none => rw [hz] at h; cases h
      | some zd =>
        rw [hz] at h; cases h
        refine ⟨⟨none, wrapS32 d.length, some zd, none⟩, by simpa [hw] using hr, ?_, rfl⟩
        have hi := c.zlib_law d zd d.length hz (Nat.le_refl _)
        simp only [unpackBlob, hw, maxBlobSize]
        rw [if_neg (by omega)]
        have : (d.length : Int).toNat = d.length := by omega
        rw [this, hi]
        simp
  obtain ⟨m, hm, hu, rfl⟩ := key
  have hsz := hf.written _ _ _ h
  have hb : wrapS32 ((c.encBlob m).length : Int) = (c.encBlob m).length := by
    have := hsz.2; unfold wrapS32; omega
  refine ⟨_, _, m, ?_, hsz.1, hsz.2, ?_, c.blob_law m hm, hu⟩
  · rw [Nat.mod_eq_of_lt (by have := hsz.1; omega)]
  · rw [c.hdr_law _ (by
      show InS32 (wrapS32 _)
      rw [hb]; have := hsz.2; unfold InS32; omega), hb]

theorem be32_length (n : Nat) : (be32 n).length = 4 := rfl

/-- Reading a complete frame. -/
theorem readBlobs_frame {c : BlobCodec} {z : Bool} {t : String} {d : Bytes} {ws : List Bytes}
    (h : storeBlob c z t d = .ok ws) (hf : BlobFits c z t d) (rest : Bytes) (chunks : Nat → Nat) :
    ∃ chunks', readBlobs c ⟨ws.flatten ++ rest, chunks⟩ =
      ((t, d) :: (readBlobs c ⟨rest, chunks'⟩).1, (readBlobs c ⟨rest, chunks'⟩).2) := by
  obtain ⟨head, body, m, rfl, h1, h2, h3, h4, h5⟩ := storeBlob_shape h hf
  have e0 : [be32 head.length, head, body].flatten ++ rest = be32 head.length ++ (head ++ (body ++ rest)) := by
    simp
  rw [e0]
  have r1 := readN_data 4 ⟨be32 head.length ++ (head ++ (body ++ rest)), chunks⟩
  simp only at r1
  rw [List.take_left' (be32_length _), List.drop_left' (be32_length _)] at r1
  rcases hr1 : readN 4 ⟨be32 head.length ++ (head ++ (body ++ rest)), chunks⟩ with ⟨b1, s1⟩
  rw [hr1] at r1
  simp only at r1
  obtain ⟨rfl, r1⟩ := r1
  have hsz : fromBE (be32 head.length) = head.length := fromBE_be32 _ (by omega)
  have r2 := readN_data head.length s1
  rw [r1, List.take_left' rfl, List.drop_left' rfl] at r2
  rcases hr2 : readN head.length s1 with ⟨b2, s2⟩
  rw [hr2] at r2
  simp only at r2
  obtain ⟨rfl, r2⟩ := r2
  have r3 := readN_data body.length s2
  rw [r2, List.take_left' rfl, List.drop_left' rfl] at r3
  rcases hr3 : readN body.length s2 with ⟨b3, s3⟩
  rw [hr3] at r3
  simp only at r3
  obtain ⟨rfl, r3⟩ := r3
  have hh : readBlobHeader c ⟨be32 b2.length ++ (b2 ++ (b3 ++ rest)), chunks⟩ =
      .ok (some ⟨t, b3.length⟩, s2) := by
    unfold readBlobHeader
    simp only [hr1, be32_length, hsz]
    rw [if_neg (by omega), if_neg (by unfold maxBlobHeaderSize; omega)]
    have : ((b2.length : Int)).toNat = b2.length := by omega
    rw [this, hr2]
    simp only [h3]
    rw [if_neg (by omega)]
  have hb : readBlob c b3.length s2 = .ok (d, s3) := by
    unfold readBlob
    rw [if_neg (by unfold maxBlobSize; omega)]
    have : ((b3.length : Int)).toNat = b3.length := by omega
    rw [this, hr3]
    simp only [h4, h5]
    rw [if_neg (by omega)]
    rfl
  refine ⟨s3.chunks, ?_⟩
  rw [readBlobs]
  split
  · rename_i e he; rw [hh] at he; cases he
  · rename_i he; rw [hh] at he; cases he
  · rename_i h' s' he
    rw [hh] at he; cases he
    simp only
    split
    · rename_i e he'; rw [hb] at he'; cases he'
    · rename_i d' s'' he'
      rw [hb] at he'; cases he'
      have : (⟨rest, s3.chunks⟩ : Input) = s3 := by rw [← r3]
      rw [this]

/-- Reading a frame that is cut off. -/
theorem readBlobs_cut {c : BlobCodec} {z : Bool} {t : String} {d : Bytes} {ws : List Bytes}
    (h : storeBlob c z t d = .ok ws) (hf : BlobFits c z t d) (k : Nat) (hk : k < ws.flatten.length)
    (chunks : Nat → Nat) :
    (readBlobs c ⟨ws.flatten.take k, chunks⟩).1 = [] ∧
    (k < 4 → (readBlobs c ⟨ws.flatten.take k, chunks⟩).2 = none) ∧
    (4 ≤ k → ∃ msg, (readBlobs c ⟨ws.flatten.take k, chunks⟩).2 = some (.exn msg)) := by
  obtain ⟨head, body, m, rfl, h1, h2, h3, h4, h5⟩ := storeBlob_shape h hf
  have e0 : [be32 head.length, head, body].flatten = be32 head.length ++ (head ++ body) := by simp
  rw [e0] at hk ⊢
  simp only [List.length_append, be32_length] at hk
  generalize hdata : (be32 head.length ++ (head ++ body)).take k = data
  have hlen : data.length = k := by
    rw [← hdata]; simp only [List.length_take, List.length_append, be32_length]; omega
  have r1 := readN_data 4 ⟨data, chunks⟩
  simp only at r1
  rcases hr1 : readN 4 ⟨data, chunks⟩ with ⟨b1, s1⟩
  rw [hr1] at r1
  simp only at r1
  by_cases hk4 : k < 4
  · have hh : readBlobHeader c ⟨data, chunks⟩ = .ok (none, s1) := by
      unfold readBlobHeader
      simp only [hr1, r1.1, List.length_take, hlen]
      rw [if_pos (by omega)]
    rw [readBlobs]
    split
    · rename_i e he; rw [hh] at he; cases he
    · simp [hk4]
    · rename_i he; rw [hh] at he; cases he
  · have hpre : data.take 4 = be32 head.length := by
      rw [← hdata, List.take_take, Nat.min_eq_left (by omega), List.take_left' (be32_length _)]
    have hrest : data.drop 4 = (head ++ body).take (k - 4) := by
      rw [← hdata, List.drop_take, List.drop_left' (be32_length _)]
    rw [hpre, hrest] at r1
    obtain ⟨rfl, r1⟩ := r1
    have hsz : fromBE (be32 head.length) = head.length := fromBE_be32 _ (by omega)
    have r2 := readN_data head.length s1
    rcases hr2 : readN head.length s1 with ⟨b2, s2⟩
    rw [hr2, r1] at r2
    simp only at r2
    have hn : ((head.length : Int)).toNat = head.length := by omega
    by_cases hkh : k - 4 < head.length
    · have hh : readBlobHeader c ⟨data, chunks⟩ = .error (.exn "failed to read BlobHeader") := by
        unfold readBlobHeader
        simp only [hr1, be32_length, hsz, hn, hr2]
        rw [if_neg (by omega), if_neg (by unfold maxBlobHeaderSize; omega), if_pos]
        rw [r2.1]; simp only [List.length_take, List.length_append]; omega
      rw [readBlobs]
      split
      · rename_i e he; rw [hh] at he; cases he
        simp [hk4]
      · rename_i he; rw [hh] at he; cases he
      · rename_i he; rw [hh] at he; cases he
    · have hb2 : b2 = head := by
        rw [r2.1, List.take_take, Nat.min_eq_left (by omega), List.take_left' rfl]
      have hs2 : s2.data = body.take (k - 4 - head.length) := by
        rw [r2.2, List.drop_take, List.drop_left' rfl]
      subst hb2
      have hh : readBlobHeader c ⟨data, chunks⟩ = .ok (some ⟨t, body.length⟩, s2) := by
        unfold readBlobHeader
        simp only [hr1, be32_length, hsz, hn, hr2]
        rw [if_neg (by omega), if_neg (by unfold maxBlobHeaderSize; omega), if_neg (by omega), h3]
      have hb : readBlob c body.length s2 = .error (.exn "failed to read blob") := by
        unfold readBlob
        rw [if_neg (by unfold maxBlobSize; omega)]
        have : ((body.length : Int)).toNat = body.length := by omega
        rw [this]
        have r3 := readN_data body.length s2
        rcases hr3 : readN body.length s2 with ⟨b3, s3⟩
        rw [hr3] at r3
        simp only at r3 ⊢
        rw [if_pos]
        rw [r3.1, hs2]; simp only [List.length_take]; omega
      rw [readBlobs]
      split
      · rename_i e he; rw [hh] at he; cases he
      · rename_i he; rw [hh] at he; cases he
      · rename_i h' s' he
        rw [hh] at he; cases he
        simp only
        split
        · rename_i e he'; rw [hb] at he'; cases he'
          simp [hk4]
        · rename_i he'; rw [hb] at he'; cases he'

theorem storeBlobs_cons {c : BlobCodec} {z : Bool} {t : String} {d : Bytes}
    {bs : List (String × Bytes)} {data : Bytes} (h : storeBlobs c z ((t, d) :: bs) = .ok data) :
    ∃ ws rest, storeBlob c z t d = .ok ws ∧ storeBlobs c z bs = .ok rest ∧
      data = ws.flatten ++ rest := by
  unfold storeBlobs at h
  cases h1 : storeBlob c z t d with
  | error e => rw [h1] at h; cases h
  | ok ws =>
    cases h2 : storeBlobs c z bs with
    | error e => rw [h1, h2] at h; cases h
    | ok rest => rw [h1, h2] at h; cases h; exact ⟨ws, rest, rfl, rfl, rfl⟩

theorem readBlobs_empty (c : BlobCodec) (chunks : Nat → Nat) : readBlobs c ⟨[], chunks⟩ = ([], none) := by
  have r1 := readN_data 4 ⟨[], chunks⟩
  have hh : ∃ s1, readBlobHeader c ⟨[], chunks⟩ = .ok (none, s1) := by
    unfold readBlobHeader
    rcases hr1 : readN 4 ⟨[], chunks⟩ with ⟨b1, s1⟩
    rw [hr1] at r1
    simp only [List.take_nil] at r1
    exact ⟨s1, by simp [r1.1]⟩
  obtain ⟨s1, hh⟩ := hh
  rw [readBlobs]
  split
  · rename_i e he; rw [hh] at he; cases he
  · rfl
  · rename_i he; rw [hh] at he; cases he

/-- **C18** (lossless): the blobs written, compressed or not, are read again, types and contents,
however many bytes each `read` call returns. -/
theorem blobs_roundtrip (c : BlobCodec) (compress : Bool) (bs : List (String × Bytes)) (data : Bytes)
    (hw : storeBlobs c compress bs = .ok data)
    (hf : ∀ b ∈ bs, BlobFits c compress b.1 b.2) (chunks : Nat → Nat) :
    readBlobs c ⟨data, chunks⟩ = (bs, none) := by
  induction bs generalizing data chunks with
  | nil => cases hw; exact readBlobs_empty c chunks
  | cons b bs ih =>
    obtain ⟨t, d⟩ := b
    obtain ⟨ws, rest, h1, h2, rfl⟩ := storeBlobs_cons hw
    obtain ⟨ch', e⟩ := readBlobs_frame h1 (hf (t, d) (by simp)) rest chunks
    rw [e, ih rest h2 (fun x hx => hf x (by simp [hx])) ch']

/-- **C18** (truncation; partial): if a file is cut off somewhere within the blob following the
blobs `bs`, exactly the blobs `bs` are read.  The cut is reported by an exception, unless it is
exactly at the start of the blob (then it is no error) or within the first four bytes: this case is
not reported, against the claim of C18. -/
theorem blobs_truncated_partial (c : BlobCodec) (compress : Bool) (bs : List (String × Bytes))
    (t : String) (d : Bytes) (pre : Bytes) (ws : List Bytes) (k : Nat)
    (hw : storeBlobs c compress bs = .ok pre) (hw' : storeBlob c compress t d = .ok ws)
    (hf : ∀ b ∈ bs, BlobFits c compress b.1 b.2) (hf' : BlobFits c compress t d)
    (hk : k < ws.flatten.length) (chunks : Nat → Nat) :
    (readBlobs c ⟨pre ++ ws.flatten.take k, chunks⟩).1 = bs ∧
    (k < 4 → (readBlobs c ⟨pre ++ ws.flatten.take k, chunks⟩).2 = none) ∧
    (4 ≤ k → ∃ msg, (readBlobs c ⟨pre ++ ws.flatten.take k, chunks⟩).2 = some (.exn msg)) := by
  induction bs generalizing pre chunks with
  | nil => cases hw; exact readBlobs_cut hw' hf' k hk chunks
  | cons b bs ih =>
    obtain ⟨t1, d1⟩ := b
    obtain ⟨ws1, rest, h1, h2, rfl⟩ := storeBlobs_cons hw
    rw [List.append_assoc]
    obtain ⟨ch', e⟩ := readBlobs_frame h1 (hf (t1, d1) (by simp)) (rest ++ ws.flatten.take k) chunks
    rw [e]
    have := ih rest h2 (fun x hx => hf x (by simp [hx])) ch'
    exact ⟨by rw [this.1], this.2⟩

/-! ### A concrete library -/

/-- A codec that meets the assumptions. -/
def demoCodec : BlobCodec where
  encHdr h := (Ser.prod Ser.string Ser.int).enc (h.type, h.datasize)
  decHdr l := ((Ser.prod Ser.string Ser.int).decAll l).map (fun p => ⟨p.1, p.2⟩)
  hdr_law h _ := by rw [Ser.decAll_enc]; rfl
  encBlob b := (Ser.prod (Ser.option Ser.bytes) (Ser.prod Ser.int (Ser.prod (Ser.option Ser.bytes)
    (Ser.option Ser.bytes)))).enc (b.raw, b.rawSize, b.zlib, b.lzma)
  decBlob l := ((Ser.prod (Ser.option Ser.bytes) (Ser.prod Ser.int (Ser.prod (Ser.option Ser.bytes)
    (Ser.option Ser.bytes)))).decAll l).map (fun p => ⟨p.1, p.2.1, p.2.2.1, p.2.2.2⟩)
  blob_law b _ := by rw [Ser.decAll_enc]; rfl
  deflate d := some d.reverse
  inflate n z := if z.length ≤ n then some z.reverse else none
  zlib_law d z n h hn := by
    cases h
    simp [hn]

/-- Two blobs. -/
def demoBlobs : List (String × Bytes) := [("OSMHeader", [1, 2, 3]), ("OSMData", [4, 5, 6, 7])]

example (z : Bool) : ∀ b ∈ demoBlobs, BlobFits demoCodec z b.1 b.2 := by
  intro b hb
  simp only [demoBlobs, List.mem_cons, List.not_mem_nil, or_false] at hb
  refine ⟨by rcases hb with rfl | rfl <;> decide, ?_⟩
  intro l h b' e
  cases z <;> rcases hb with rfl | rfl <;> cases e <;> decide +kernel

example : ∃ data, storeBlobs demoCodec true demoBlobs = .ok data ∧ data.length = 49 :=
  ⟨_, rfl, by decide +kernel⟩

/-- **C18** (negation): a file cut off within the length field of a blob is read without error. -/
theorem truncation_in_length_unnoticed :
    ∃ ws, storeBlob demoCodec false "OSMData" [4, 5, 6, 7] = .ok ws ∧
      ∀ chunks, readBlobs demoCodec ⟨ws.flatten.take 3, chunks⟩ = ([], none) := by
  refine ⟨_, rfl, fun chunks => ?_⟩
  have hf : BlobFits demoCodec false "OSMData" [4, 5, 6, 7] := by
    refine ⟨by decide, ?_⟩
    intro l h b e
    cases e; decide +kernel
  have := readBlobs_cut (c := demoCodec) rfl hf 3 (by decide +kernel) chunks
  exact Prod.ext this.1 (this.2.1 (by decide))

end Osmium
