import Verif.Pbf.Skip

/-
C128: what the PBF reader makes of a file, good or bad, does not depend on how the operating system hands out the data.
-/
namespace Osmium

/-- Two results of a function that reads from the file: the same value, and the same data is left. (helper, no counterpart
in /repo) -/
def SameRead {α : Type} : Res (α × Input) → Res (α × Input) → Prop
  | .ok (a, s), .ok (b, t) => a = b ∧ s.data = t.data
  | .error e, .error f => e = f
  | _, _ => False

theorem readN_same (n : Nat) {s t : Input} (h : s.data = t.data) :
    (readN n s).1 = (readN n t).1 ∧ (readN n s).2.data = (readN n t).2.data := by
  obtain ⟨a, b⟩ := readN_data n s
  obtain ⟨c, d⟩ := readN_data n t
  exact ⟨by rw [a, c, h], by rw [b, d, h]⟩

theorem readBlobHeader_same (c : BlobCodec) {s t : Input} (h : s.data = t.data) :
    SameRead (readBlobHeader c s) (readBlobHeader c t) := by
  unfold readBlobHeader
  obtain ⟨a, b⟩ := readN_same 4 h
  rcases h1 : readN 4 s with ⟨b1, s1⟩
  rcases h2 : readN 4 t with ⟨b2, t1⟩
  rw [h1, h2] at a b
  simp only at a b
  subst a
  simp only
  by_cases hl : b1.length < 4
  · rw [if_pos hl, if_pos hl]
    exact ⟨rfl, b⟩
  · rw [if_neg hl, if_neg hl]
    by_cases hz : fromBE b1 > maxBlobHeaderSize ∨ fromBE b1 < 0
    · rw [if_pos hz, if_pos hz]
      exact rfl
    · rw [if_neg hz, if_neg hz]
      obtain ⟨a', b'⟩ := readN_same (fromBE b1).toNat b
      rcases h3 : readN (fromBE b1).toNat s1 with ⟨b3, s2⟩
      rcases h4 : readN (fromBE b1).toNat t1 with ⟨b4, t2⟩
      rw [h3, h4] at a' b'
      simp only at a' b'
      subst a'
      simp only
      split
      · exact rfl
      · cases c.decHdr b3 with
        | none => exact rfl
        | some x => exact ⟨rfl, b'⟩

theorem readBlob_same (c : BlobCodec) (size : Int) {s t : Input} (h : s.data = t.data) :
    SameRead (readBlob c size s) (readBlob c size t) := by
  unfold readBlob
  split
  · exact rfl
  · obtain ⟨a, b⟩ := readN_same size.toNat h
    rcases h1 : readN size.toNat s with ⟨b1, s1⟩
    rcases h2 : readN size.toNat t with ⟨b2, t1⟩
    rw [h1, h2] at a b
    simp only at a b
    subst a
    simp only
    split
    · exact rfl
    · cases c.decBlob b1 with
      | none => exact rfl
      | some m =>
        cases hu : unpackBlob c m with
        | error e => simp [hu, bind, Except.bind, SameRead]
        | ok d => simpa [hu, bind, Except.bind, pure, Except.pure, SameRead] using b

theorem readBlobs_error (c : BlobCodec) {s : Input} {e : Fail} (h : readBlobHeader c s = .error e) :
    readBlobs c s = ([], some e) := by
  rw [readBlobs]
  split <;> rename_i hx <;> rw [h] at hx <;> cases hx
  rfl

theorem readBlobs_end (c : BlobCodec) {s s1 : Input} (h : readBlobHeader c s = .ok (none, s1)) :
    readBlobs c s = ([], none) := by
  rw [readBlobs]
  split
  · rename_i hx; rw [h] at hx; cases hx
  · rfl
  · rename_i hx; rw [h] at hx; cases hx

theorem readBlobs_bad (c : BlobCodec) {s s1 : Input} {x : BlobHdr} {e : Fail} (h : readBlobHeader c s = .ok (some x, s1))
    (hb : readBlob c x.datasize s1 = .error e) : readBlobs c s = ([], some e) := by
  rw [readBlobs]
  split
  · rename_i hx; rw [h] at hx; cases hx
  · rename_i hx; rw [h] at hx; cases hx
  · rename_i hx
    rw [h] at hx
    cases hx
    split <;> rename_i hy <;> rw [hb] at hy <;> cases hy
    rfl

theorem readBlobs_more (c : BlobCodec) {s s1 s2 : Input} {x : BlobHdr} {d : Bytes}
    (h : readBlobHeader c s = .ok (some x, s1)) (hb : readBlob c x.datasize s1 = .ok (d, s2)) :
    readBlobs c s = ((x.type, d) :: (readBlobs c s2).1, (readBlobs c s2).2) := by
  conv_lhs => rw [readBlobs]
  split
  · rename_i hx; rw [h] at hx; cases hx
  · rename_i hx; rw [h] at hx; cases hx
  · rename_i hx
    rw [h] at hx
    cases hx
    split <;> rename_i hy <;> rw [hb] at hy <;> cases hy
    rfl

theorem readBlobs_same (c : BlobCodec) (n : Nat) :
    ∀ s t : Input, s.data.length < n → s.data = t.data → readBlobs c s = readBlobs c t := by
  induction n with
  | zero => intro s t hn; omega
  | succ n ih =>
    intro s t hn h
    have hh := readBlobHeader_same c h
    rcases hs : readBlobHeader c s with e | ⟨o, s1⟩ <;> rcases ht : readBlobHeader c t with e' | ⟨o', t1⟩ <;>
      rw [hs, ht] at hh
    · cases hh
      rw [readBlobs_error c hs, readBlobs_error c ht]
    · exact hh.elim
    · exact hh.elim
    · obtain ⟨h1, h2⟩ := hh
      cases h1
      cases o with
      | none => rw [readBlobs_end c hs, readBlobs_end c ht]
      | some x =>
        have hb := readBlob_same c x.datasize h2
        rcases hs2 : readBlob c x.datasize s1 with e | ⟨d, s2⟩ <;> rcases ht2 : readBlob c x.datasize t1 with e' | ⟨d', t2⟩ <;>
          rw [hs2, ht2] at hb
        · cases hb
          rw [readBlobs_bad c hs hs2, readBlobs_bad c ht ht2]
        · exact hb.elim
        · exact hb.elim
        · obtain ⟨h3, h4⟩ := hb
          cases h3
          have r1 := readBlobHeader_rest c s _ _ hs
          have r2 := readBlob_rest c _ _ _ _ hs2
          rw [readBlobs_more c hs hs2, readBlobs_more c ht ht2, ih s2 t2 (by omega) h4]

/-- **C128**: for every content of a file, every handler and every two ways in which the operating system can hand out the
data, the PBF reader makes the same calls and ends in the same way. -/
theorem pbf_pieces (skip : ObjType → Bool) (c : PbfCodec) (ft : FileType) (h : Stops) (data : Bytes) (p q : Nat → Nat) :
    pbfParse c ft h ⟨data, p⟩ = pbfParse c ft h ⟨data, q⟩ ∧
    pbfParseFor skip c ft h ⟨data, p⟩ = pbfParseFor skip c ft h ⟨data, q⟩ := by
  unfold pbfParse pbfParseFor
  rw [readBlobs_same c.toBlobCodec (data.length + 1) ⟨data, p⟩ ⟨data, q⟩ (Nat.lt_succ_self _) rfl]
  exact ⟨rfl, rfl⟩

end Osmium
