import Verif.Pbf.Pieces
import Verif.Pbf.FileProps
import Verif.Input.Deliver

/-
C130: the reading of a PBF file when calls of `read(2)` can fail.  The functions of Blob.lean are modelled here once more,
with a third outcome of each `read` call.
-/
namespace Osmium

/-! ### Model -/

/-- The rest of the file, and what the following `read` calls do: `none` is a call that fails (any `errno`, including
`EINTR`), `some k` one that wants to return `k` bytes. (the operating system, called in input/pbf.hpp 395, 413, 437) -/
structure InputE where
  data : Bytes
  reads : Nat → Option Nat

/-- The same file without failing calls. (helper for statements, no counterpart in /repo) -/
def InputE.plain (s : InputE) : Input := ⟨s.data, fun i => (s.reads i).getD 0⟩

/-- How one of the loops around `read` ends: with all bytes or at the end of the file, or with a failed call.
(input/pbf.hpp 394-402, 412-418, 436-442) -/
inductive ReadEnd where
  | got (b : Bytes) (rest : InputE)
  | failed

/-- input/pbf.hpp:394-402, 412-418, 436-442: the loops that read `n` bytes; `nread < 0` ends each of them. -/
def readNE (n : Nat) (s : InputE) : ReadEnd :=
  if n = 0 then .got [] s
  else match s.reads 0 with
    | none => .failed
    | some k =>
      let g := min (min n s.data.length) (max 1 k)
      if g = 0 then .got [] s
      else
        match readNE (n - g) ⟨s.data.drop g, fun i => s.reads (i + 1)⟩ with
        | .failed => .failed
        | .got b s2 => .got (s.data.take g ++ b) s2
termination_by n
decreasing_by omega

/-- input/pbf.hpp:391-424 `read_blob_header`: `none` is the end of the file. -/
def readBlobHeaderE (c : BlobCodec) (s : InputE) : Res (Option BlobHdr × InputE) :=
  match readNE 4 s with
  | .failed => .error (.exn "read error")
  | .got b s1 =>
    if b.length < 4 then .ok (none, s1)
    else if fromBE b > maxBlobHeaderSize ∨ fromBE b < 0 then .error (.exn "BlobHeader size invalid")
    else match readNE (fromBE b).toNat s1 with
      | .failed => .error (.exn "failed to read BlobHeader")
      | .got h s2 =>
        if (h.length : Int) < fromBE b then .error (.exn "failed to read BlobHeader")
        else match c.decHdr h with
          | none => .error (.exn "failed to parse BlobHeader")
          | some h => .ok (some h, s2)

/-- input/pbf.hpp:429-461 `read_blob`. -/
def readBlobE (c : BlobCodec) (size : Int) (s : InputE) : Res (Bytes × InputE) :=
  if size < 0 ∨ size > maxBlobSize then .error (.exn "invalid blob size")
  else match readNE size.toNat s with
    | .failed => .error (.exn "failed to read blob")
    | .got b s1 =>
      if (b.length : Int) < size then .error (.exn "failed to read blob")
      else match c.decBlob b with
        | none => .error (.exn "failed to parse blob")
        | some m => do return (← unpackBlob c m, s1)

/-! ### The loops agree with those of Blob.lean until a call fails -/

/-- The messages of the exceptions thrown for a failed `read`. (spec) -/
def Spec.readFailures : List String := ["read error", "failed to read BlobHeader", "failed to read blob"]

/-- `x` is the exception for a failed `read`, or the same as without failing calls. (helper, no counterpart in /repo) -/
def AgreesOrFails {α : Type} (x : Res (α × InputE)) (y : Res (α × Input)) : Prop :=
  (∃ msg ∈ Spec.readFailures, x = .error (.exn msg)) ∨
  (∃ a s, x = .ok (a, s) ∧ y = .ok (a, s.plain)) ∨
  (∃ e, x = .error e ∧ y = .error e)

theorem readNE_got (n : Nat) (s s' : InputE) (b : Bytes) (h : readNE n s = .got b s') :
    readN n s.plain = (b, s'.plain) := by
  induction n using Nat.strongRecOn generalizing s s' b with
  | ind n ih =>
    unfold readNE at h
    unfold readN
    split at h
    · rename_i hn
      cases h
      rw [if_pos hn]
    · rename_i hn
      rw [if_neg hn]
      cases hr : s.reads 0 with
      | none => rw [hr] at h; cases h
      | some k =>
        have hg : s.plain.got n = min (min n s.data.length) (max 1 k) := by
          simp [Input.got, InputE.plain, hr]
        rw [hr] at h
        simp only at h
        rw [hg]
        split at h
        · rename_i h0
          cases h
          rw [if_pos h0]
        · rename_i h0
          rw [if_neg h0]
          generalize hgg : min (min n s.data.length) (max 1 k) = g at *
          cases hq : readNE (n - g) ⟨s.data.drop g, fun i => s.reads (i + 1)⟩ with
          | failed => rw [hq] at h; cases h
          | got b2 s2 =>
            rw [hq] at h
            cases h
            have := ih (n - g) (by omega) _ _ _ hq
            simp only [Input.read, hg]
            rw [show (⟨List.drop g s.plain.data, fun i => s.plain.chunks (i + 1)⟩ : Input) =
              (InputE.mk (s.data.drop g) fun i => s.reads (i + 1)).plain from rfl, this]
            rfl

theorem readBlobHeaderE_agrees (c : BlobCodec) (s : InputE) :
    AgreesOrFails (readBlobHeaderE c s) (readBlobHeader c s.plain) := by
  unfold readBlobHeaderE readBlobHeader
  cases h1 : readNE 4 s with
  | failed => exact .inl ⟨_, by simp [Spec.readFailures], rfl⟩
  | got b s1 =>
    rw [readNE_got _ _ _ _ h1]
    simp only
    split
    · exact .inr (.inl ⟨_, _, rfl, rfl⟩)
    · split
      · exact .inr (.inr ⟨_, rfl, rfl⟩)
      · cases h2 : readNE (fromBE b).toNat s1 with
        | failed => exact .inl ⟨_, by simp [Spec.readFailures], rfl⟩
        | got h s2 =>
          rw [readNE_got _ _ _ _ h2]
          simp only
          split
          · exact .inr (.inr ⟨_, rfl, rfl⟩)
          · cases c.decHdr h with
            | none => exact .inr (.inr ⟨_, rfl, rfl⟩)
            | some x => exact .inr (.inl ⟨_, _, rfl, rfl⟩)

theorem readBlobE_agrees (c : BlobCodec) (size : Int) (s : InputE) :
    AgreesOrFails (readBlobE c size s) (readBlob c size s.plain) := by
  unfold readBlobE readBlob
  split
  · exact .inr (.inr ⟨_, rfl, rfl⟩)
  · cases h1 : readNE size.toNat s with
    | failed => exact .inl ⟨_, by simp [Spec.readFailures], rfl⟩
    | got b s1 =>
      rw [readNE_got _ _ _ _ h1]
      simp only
      split
      · exact .inr (.inr ⟨_, rfl, rfl⟩)
      · cases c.decBlob b with
        | none => exact .inr (.inr ⟨_, rfl, rfl⟩)
        | some m =>
          cases hu : unpackBlob c m with
          | error e => exact .inr (.inr ⟨e, by simp [hu, bind, Except.bind], by simp [hu, bind, Except.bind]⟩)
          | ok d => exact .inr (.inl ⟨d, s1, by simp [hu, bind, Except.bind, pure, Except.pure],
              by simp [hu, bind, Except.bind, pure, Except.pure]⟩)

theorem readBlobHeaderE_rest (c : BlobCodec) (s s' : InputE) (h : BlobHdr)
    (e : readBlobHeaderE c s = .ok (some h, s')) : s'.data.length < s.data.length := by
  rcases readBlobHeaderE_agrees c s with ⟨m, _, h1⟩ | ⟨a, t, h1, h2⟩ | ⟨f, h1, h2⟩
  · rw [h1] at e; cases e
  · rw [h1] at e
    cases e
    exact readBlobHeader_rest c s.plain _ _ h2
  · rw [h1] at e; cases e

theorem readBlobE_rest (c : BlobCodec) (n : Int) (s s' : InputE) (d : Bytes)
    (e : readBlobE c n s = .ok (d, s')) : s'.data.length ≤ s.data.length := by
  rcases readBlobE_agrees c n s with ⟨m, _, h1⟩ | ⟨a, t, h1, h2⟩ | ⟨f, h1, h2⟩
  · rw [h1] at e; cases e
  · rw [h1] at e
    cases e
    exact readBlob_rest c n s.plain _ _ h2
  · rw [h1] at e; cases e

/-- input/pbf.hpp:90-91 the loop over the blobs of a file: the blobs read (type and data) and the
failure at the end, if any. -/
def readBlobsE (c : BlobCodec) (s : InputE) : List (String × Bytes) × Option Fail :=
  match hh : readBlobHeaderE c s with
  | .error e => ([], some e)
  | .ok (none, _) => ([], none)
  | .ok (some h, s1) =>
    match hb : readBlobE c h.datasize s1 with
    | .error e => ([], some e)
    | .ok (d, s2) =>
      let (bs, f) := readBlobsE c s2
      ((h.type, d) :: bs, f)
termination_by s.data.length
decreasing_by
  have h1 := readBlobHeaderE_rest c s _ _ hh
  have h2 := readBlobE_rest c _ _ _ _ hb
  omega

/-- input/pbf.hpp:88-150 `parse`, with a handler that may throw `StopReading`, on a file whose `read` calls may fail. -/
def pbfParseE (c : PbfCodec) (ft : FileType) (h : Stops) (s : InputE) : List Cb × ParseEnd :=
  let (bs, f) := readBlobsE c.toBlobCodec s
  let (ev, m, last) := parseBlobs c ft (Meta.new ft.multi) .unknown bs
  parseFrame h (ev.seq ⟨[], f⟩) (afterAndBefore m last .unknown)

theorem readBlobsE_agrees (c : BlobCodec) (n : Nat) : ∀ s : InputE, s.data.length < n →
    readBlobsE c s = readBlobs c s.plain ∨
    (∃ msg ∈ Spec.readFailures, (readBlobsE c s).2 = some (.exn msg)) ∧
      (readBlobsE c s).1 <+: (readBlobs c s.plain).1 := by
  induction n with
  | zero => intro s hn; omega
  | succ n ih =>
    intro s hn
    rw [readBlobsE]
    rcases readBlobHeaderE_agrees c s with ⟨msg, hm, h1⟩ | ⟨a, t, h1, h2⟩ | ⟨f, h1, h2⟩
    · right
      split <;> rename_i hx <;> rw [h1] at hx <;> cases hx
      exact ⟨⟨msg, hm, rfl⟩, List.nil_prefix⟩
    · cases a with
      | none =>
        left
        rw [readBlobs_end c h2]
        split <;> rename_i hx <;> rw [h1] at hx <;> cases hx
      | some x =>
        split <;> rename_i hx <;> rw [h1] at hx <;> cases hx
        rcases readBlobE_agrees c x.datasize t with ⟨msg, hm, h3⟩ | ⟨d, u, h3, h4⟩ | ⟨f, h3, h4⟩
        · right
          split <;> rename_i hy <;> rw [h3] at hy <;> cases hy
          exact ⟨⟨msg, hm, rfl⟩, List.nil_prefix⟩
        · split <;> rename_i hy <;> rw [h3] at hy <;> cases hy
          rw [readBlobs_more c h2 h4]
          have r1 := readBlobHeaderE_rest c s _ _ h1
          have r2 := readBlobE_rest c _ _ _ _ h3
          rcases ih u (by omega) with h5 | ⟨⟨msg, hm, h5⟩, h6⟩
          · left; rw [h5]
          · right
            exact ⟨⟨msg, hm, h5⟩, by simpa using h6⟩
        · left
          split <;> rename_i hy <;> rw [h3] at hy <;> cases hy
          rw [readBlobs_bad c h2 h4]
    · left
      rw [readBlobs_error c h2]
      split <;> rename_i hx <;> rw [h1] at hx <;> cases hx
      rfl

/-- The events of more blobs: those of the first ones, then (unless these failed) further ones. -/
theorem parseBlobs_append (c : PbfCodec) (ft : FileType) (a b : List (String × Bytes)) (m : Meta) (last : ObjType) :
    ∃ more : Events, (parseBlobs c ft m last (a ++ b)).1 = (parseBlobs c ft m last a).1.seq more := by
  induction a generalizing m last with
  | nil => exact ⟨(parseBlobs c ft m last b).1, by simp [parseBlobs, Events.seq]⟩
  | cons x a ih =>
    obtain ⟨t, d⟩ := x
    simp only [List.cons_append, parseBlobs]
    split
    · cases c.decBlock d with
      | none => exact ⟨⟨[], none⟩, by simp [Events.seq]⟩
      | some bl =>
        simp only
        rcases readGroups m bl last bl.groups with ⟨e1, last1⟩
        obtain ⟨more, h1⟩ := ih m last1
        refine ⟨more, ?_⟩
        simp only [h1]
        cases e1 with
        | mk c1 f1 =>
          cases f1 with
          | some f => simp [Events.seq]
          | none =>
            cases hf : (parseBlobs c ft m last1 a).1.fail <;> simp [Events.seq, hf]
    · split
      · cases c.decHeader d with
        | none => exact ⟨⟨[], none⟩, by simp [Events.seq]⟩
        | some hd =>
          simp only
          cases readHeader ft m hd with
          | error e => exact ⟨⟨[], none⟩, by simp [Events.seq]⟩
          | ok m' => exact ih m' last
      · exact ih m last

/-- Events that end with a failure against events that go on. -/
theorem parseFrame_cut (h : Stops) (ev more : Events) (e : Fail) (ends ends2 : List Cb) :
    parseFrame h (ev.seq ⟨[], some e⟩) ends = parseFrame h (ev.seq more) ends2 ∨
    (parseFrame h (ev.seq ⟨[], some e⟩) ends).2 = .threw e ∧
      (parseFrame h (ev.seq ⟨[], some e⟩) ends).1 <+: (parseFrame h (ev.seq more) ends2).1 := by
  obtain ⟨calls, f⟩ := ev
  obtain ⟨calls2, e2⟩ := more
  cases f with
  | some f =>
    left
    simp only [Events.seq, parseFrame]
  | none =>
    simp only [Events.seq, parseFrame, List.append_nil, deliver_append]
    rcases hd : deliver h [] calls with ⟨d, b⟩
    cases b with
    | true => left; rfl
    | false =>
      right
      refine ⟨rfl, ?_⟩
      simp only
      have hp := deliver_prefix h d calls2
      rcases hd2 : deliver h d calls2 with ⟨d2, b2⟩
      rw [hd2] at hp
      cases b2 with
      | true => exact hp.trans (List.prefix_append _ _)
      | false =>
        cases e2 with
        | some f => exact hp
        | none =>
          simp only
          have hp3 := deliver_prefix h d2 ends2
          rcases hd3 : deliver h d2 ends2 with ⟨d3, b3⟩
          rw [hd3] at hp3
          exact hp.trans (hp3.trans (List.prefix_append _ _))

theorem Events.seq_assoc (a b c : Events) : (a.seq b).seq c = a.seq (b.seq c) := by
  obtain ⟨a1, a2⟩ := a
  obtain ⟨b1, b2⟩ := b
  cases a2 <;> cases b2 <;> simp [Events.seq]

/-! ### Without failing calls -/

theorem readNE_noFail (n : Nat) (s : InputE) (h : ∀ i, s.reads i ≠ none) :
    ∃ b s', readNE n s = .got b s' ∧ ∀ i, s'.reads i ≠ none := by
  induction n using Nat.strongRecOn generalizing s with
  | ind n ih =>
    unfold readNE
    split
    · exact ⟨_, _, rfl, h⟩
    · cases hr : s.reads 0 with
      | none => exact (h 0 hr).elim
      | some k =>
        simp only
        split
        · exact ⟨_, _, rfl, h⟩
        · obtain ⟨b, s', h1, h2⟩ := ih (n - min (min n s.data.length) (max 1 k)) (by omega)
            ⟨s.data.drop (min (min n s.data.length) (max 1 k)), fun i => s.reads (i + 1)⟩ (fun i => h (i + 1))
          rw [h1]
          exact ⟨_, _, rfl, h2⟩

/-- Both return the same, or both throw the same. (helper, no counterpart in /repo) -/
def AgreesOn {α : Type} (x : Res (α × InputE)) (y : Res (α × Input)) : Prop :=
  (∃ a s, x = .ok (a, s) ∧ y = .ok (a, s.plain) ∧ ∀ i, s.reads i ≠ none) ∨ (∃ e, x = .error e ∧ y = .error e)

theorem readBlobHeaderE_noFail (c : BlobCodec) (s : InputE) (hs : ∀ i, s.reads i ≠ none) :
    AgreesOn (readBlobHeaderE c s) (readBlobHeader c s.plain) := by
  unfold readBlobHeaderE readBlobHeader
  obtain ⟨b, s1, h1, hs1⟩ := readNE_noFail 4 s hs
  rw [readNE_got _ _ _ _ h1, h1]
  simp only
  split
  · exact .inl ⟨_, _, rfl, rfl, hs1⟩
  · split
    · exact .inr ⟨_, rfl, rfl⟩
    · obtain ⟨h, s2, h2, hs2⟩ := readNE_noFail (fromBE b).toNat s1 hs1
      rw [readNE_got _ _ _ _ h2, h2]
      simp only
      split
      · exact .inr ⟨_, rfl, rfl⟩
      · cases c.decHdr h with
        | none => exact .inr ⟨_, rfl, rfl⟩
        | some x => exact .inl ⟨_, _, rfl, rfl, hs2⟩

theorem readBlobE_noFail (c : BlobCodec) (size : Int) (s : InputE) (hs : ∀ i, s.reads i ≠ none) :
    AgreesOn (readBlobE c size s) (readBlob c size s.plain) := by
  unfold readBlobE readBlob
  split
  · exact .inr ⟨_, rfl, rfl⟩
  · obtain ⟨b, s1, h1, hs1⟩ := readNE_noFail size.toNat s hs
    rw [readNE_got _ _ _ _ h1, h1]
    simp only
    split
    · exact .inr ⟨_, rfl, rfl⟩
    · cases c.decBlob b with
      | none => exact .inr ⟨_, rfl, rfl⟩
      | some m =>
        cases hu : unpackBlob c m with
        | error e => exact .inr ⟨e, by simp [hu, bind, Except.bind], by simp [hu, bind, Except.bind]⟩
        | ok d => exact .inl ⟨d, s1, by simp [hu, bind, Except.bind, pure, Except.pure],
            by simp [hu, bind, Except.bind, pure, Except.pure], hs1⟩

theorem readBlobsE_noFail (c : BlobCodec) (n : Nat) : ∀ s : InputE, s.data.length < n → (∀ i, s.reads i ≠ none) →
    readBlobsE c s = readBlobs c s.plain := by
  induction n with
  | zero => intro s hn; omega
  | succ n ih =>
    intro s hn hs
    rw [readBlobsE]
    rcases readBlobHeaderE_noFail c s hs with ⟨a, t, h1, h2, ht⟩ | ⟨f, h1, h2⟩
    · cases a with
      | none =>
        rw [readBlobs_end c h2]
        split <;> rename_i hx <;> rw [h1] at hx <;> cases hx
      | some x =>
        split <;> rename_i hx <;> rw [h1] at hx <;> cases hx
        rcases readBlobE_noFail c x.datasize t ht with ⟨d, u, h3, h4, hu⟩ | ⟨f, h3, h4⟩
        · split <;> rename_i hy <;> rw [h3] at hy <;> cases hy
          rw [readBlobs_more c h2 h4]
          have r1 := readBlobHeaderE_rest c s _ _ h1
          have r2 := readBlobE_rest c _ _ _ _ h3
          rw [ih u (by omega) hu]
        · split <;> rename_i hy <;> rw [h3] at hy <;> cases hy
          rw [readBlobs_bad c h2 h4]
    · rw [readBlobs_error c h2]
      split <;> rename_i hx <;> rw [h1] at hx <;> cases hx
      rfl

/-! ### C130 -/

/-- **C130**: for every content of a PBF file, every handler and every behaviour of the operating system, with calls of
`read` that fail at any place: what the reader does is what it does when no call fails, or it throws one of the three
exceptions for a failed `read`, after the beginning of the calls it would have made. -/
theorem pbf_read_errors (c : PbfCodec) (ft : FileType) (h : Stops) (data : Bytes) (reads : Nat → Option Nat)
    (whole : Nat → Nat) :
    pbfParseE c ft h ⟨data, reads⟩ = pbfParse c ft h ⟨data, whole⟩ ∨
    (∃ msg ∈ Spec.readFailures, (pbfParseE c ft h ⟨data, reads⟩).2 = .threw (.exn msg)) ∧
      (pbfParseE c ft h ⟨data, reads⟩).1 <+: (pbfParse c ft h ⟨data, whole⟩).1 := by
  rw [(pbf_pieces (fun _ => false) c ft h data whole (InputE.plain ⟨data, reads⟩).chunks).1]
  change _ = pbfParse c ft h (InputE.plain ⟨data, reads⟩) ∨ _ ∧ _ <+: (pbfParse c ft h (InputE.plain ⟨data, reads⟩)).1
  unfold pbfParseE pbfParse
  rcases readBlobsE_agrees c.toBlobCodec (data.length + 1) ⟨data, reads⟩ (Nat.lt_succ_self _) with h1 | ⟨⟨msg, hm, h1⟩, h2⟩
  · left; rw [h1]
  · obtain ⟨b, hb⟩ := h2
    rcases hr : readBlobsE c.toBlobCodec ⟨data, reads⟩ with ⟨bs, f⟩
    rcases hq : readBlobs c.toBlobCodec (InputE.plain ⟨data, reads⟩) with ⟨bs2, f2⟩
    rw [hr] at h1 hb
    rw [hq] at hb
    simp only at h1 hb
    subst h1 hb
    obtain ⟨more, h3⟩ := parseBlobs_append c ft bs b (Meta.new ft.multi) .unknown
    rcases h0 : parseBlobs c ft (Meta.new ft.multi) .unknown bs with ⟨ev, m, last⟩
    rcases h4 : parseBlobs c ft (Meta.new ft.multi) .unknown (bs ++ b) with ⟨ev2, m2, last2⟩
    rw [h4, h0] at h3
    simp only at h3
    subst h3
    simp only [h0, h4, Events.seq_assoc]
    rcases parseFrame_cut h ev (more.seq ⟨[], f2⟩) (.exn msg) (afterAndBefore m last .unknown)
      (afterAndBefore m2 last2 .unknown) with h5 | ⟨h5, h6⟩
    · exact .inl h5
    · exact .inr ⟨⟨msg, hm, h5⟩, h6⟩

/-- **C130**: if the reader returns without an exception, no failed `read` has been taken for the end of the file: the
handler has seen exactly what it sees when no call fails. -/
theorem pbf_returned_whole (c : PbfCodec) (ft : FileType) (h : Stops) (data : Bytes) (reads : Nat → Option Nat)
    (whole : Nat → Nat) (hr : (pbfParseE c ft h ⟨data, reads⟩).2 = .returned) :
    pbfParseE c ft h ⟨data, reads⟩ = pbfParse c ft h ⟨data, whole⟩ := by
  rcases pbf_read_errors c ft h data reads whole with h1 | ⟨⟨msg, _, h1⟩, _⟩
  · exact h1
  · rw [hr] at h1; cases h1

/-- **C130**: a file none of whose `read` calls fails is read as in C128. -/
theorem pbf_no_errors (c : PbfCodec) (ft : FileType) (h : Stops) (data : Bytes) (reads : Nat → Option Nat)
    (whole : Nat → Nat) (hr : ∀ i, reads i ≠ none) :
    pbfParseE c ft h ⟨data, reads⟩ = pbfParse c ft h ⟨data, whole⟩ := by
  rw [(pbf_pieces (fun _ => false) c ft h data whole (InputE.plain ⟨data, reads⟩).chunks).1]
  unfold pbfParseE pbfParse
  rw [readBlobsE_noFail c.toBlobCodec (data.length + 1) ⟨data, reads⟩ (Nat.lt_succ_self _) hr]
  rfl

/-- **C130**: a file whose first call of `read` fails is not an empty file. -/
theorem pbf_first_read_fails (c : PbfCodec) (ft : FileType) (h : Stops) (data : Bytes) (reads : Nat → Option Nat)
    (h0 : reads 0 = none) : pbfParseE c ft h ⟨data, reads⟩ = ([], .threw (.exn "read error")) := by
  have hn : readNE 4 ⟨data, reads⟩ = .failed := by
    unfold readNE
    simp [h0]
  have hh : readBlobHeaderE c.toBlobCodec ⟨data, reads⟩ = .error (.exn "read error") := by
    unfold readBlobHeaderE
    rw [hn]
  unfold pbfParseE
  rw [readBlobsE]
  split <;> rename_i hx <;> rw [hh] at hx <;> cases hx
  simp [parseBlobs, parseFrame, Events.seq, deliver]

/-- Calls of `read` of which the one with the number `k` fails. -/
def failsAt (k : Nat) : Nat → Option Nat := fun i => if i = k then none else some 1000000

/-- The file of the example in FileProps.lean, with objects of all types, read with a call that fails. -/
def demoFails (k : Nat) : List Cb × ParseEnd :=
  match pbfFile demoLib demoPbfCodec (PbfCfg.default true) true .history "me" demoMeta demoObjs with
  | .ok data => pbfParseE demoPbfCodec .history (fun _ => false) ⟨data, failsAt k⟩
  | .error _ => ([], .returned)

/-- All three exceptions are met.  The call that fails at the end of the file (number 6) comes after all objects: the handler
has seen all of them, but not the end.  A later call is not made. -/
example :
    demoFails 0 = ([], .threw (.exn "read error")) ∧
    demoFails 1 = ([], .threw (.exn "failed to read BlobHeader")) ∧
    demoFails 5 = ([], .threw (.exn "failed to read blob")) ∧
    (demoFails 6).2 = .threw (.exn "read error") ∧
    (demoFails 6).1 ++ [.after .relation, .final] =
      Spec.protocol ⟨⟨⟨100, 200⟩, ⟨300, 400⟩⟩, "me", true⟩ (demoObjs.map (Spec.kept true true)) ∧
    demoFails 7 = (Spec.protocol ⟨⟨⟨100, 200⟩, ⟨300, 400⟩⟩, "me", true⟩ (demoObjs.map (Spec.kept true true)), .returned) := by
  decide +kernel

end Osmium
