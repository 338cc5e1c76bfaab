import Verif.Convert.Model
/-
Properties of the conversion of files (C68).
-/
namespace Osmium
open Spec

/-! ### Handlers that ignore `before_...` and `after_...` -/

theorem feed_append {σ : Type} (f : σ → Cb → Res σ) (s : σ) (a b : List Cb) :
    feed f s (a ++ b) = (feed f s a >>= fun t => feed f t b) := by
  induction a generalizing s with
  | nil => rfl
  | cons c cs ih =>
    simp only [List.cons_append, feed]
    cases f s c with
    | error e => rfl
    | ok t => exact ih t

theorem feed_run {σ : Type} (f : σ → Cb → Res σ) (hb : ∀ s t, f s (.before t) = .ok s)
    (ha : ∀ s t, f s (.after t) = .ok s) (s : σ) (r : List OsmObj) :
    feed f s (runCalls r) = feed f s (r.map Cb.obj) := by
  cases r with
  | nil => rfl
  | cons o os =>
    simp only [runCalls, List.cons_append, feed, hb]
    show feed f s ((o :: os).map Cb.obj ++ [.after o.type]) = _
    rw [feed_append]
    cases feed f s ((o :: os).map Cb.obj) with
    | error e => rfl
    | ok t => simp [feed, ha, bind, Except.bind]

theorem feed_protocol {σ : Type} (f : σ → Cb → Res σ) (hb : ∀ s t, f s (.before t) = .ok s)
    (ha : ∀ s t, f s (.after t) = .ok s) (s : σ) (m : Meta) (os : List OsmObj) :
    feed f s (protocol m os) = feed f s (.init m :: os.map Cb.obj ++ [.final]) := by
  have h : ∀ (rs : List (List OsmObj)) (s : σ),
      feed f s (rs.flatMap runCalls) = feed f s (rs.flatten.map Cb.obj) := by
    intro rs
    induction rs with
    | nil => intro s; rfl
    | cons r rs ih =>
      intro s
      rw [List.flatMap_cons, List.flatten_cons, List.map_append, feed_append, feed_append,
        feed_run f hb ha]
      cases feed f s (r.map Cb.obj) with
      | error e => rfl
      | ok t => exact ih t
  have hr : (runs os).flatten = os := by
    have := objects_protocol m os
    have e : protocol m os = [.init m] ++ ((runs os).flatMap runCalls ++ [.final]) := by simp [protocol]
    have h' : ∀ l : List (List OsmObj), objects (l.flatMap runCalls) = l.flatten := by
      intro l
      induction l with
      | nil => rfl
      | cons a l ih => rw [List.flatMap_cons, objects_append, objects_run, ih, List.flatten_cons]
    rw [e, objects_append, objects_append, h'] at this
    simpa [objects] using this
  unfold protocol
  rw [List.cons_append, List.cons_append]
  simp only [feed]
  cases f s (.init m) with
  | error e => rfl
  | ok t =>
    show feed f t _ = feed f t _
    rw [feed_append, feed_append, h, hr]

/-! ### XML output -/

theorem xmlOut_objs (ft : FileType) (gen : String) (os : List OsmObj) (x : XmlOut) (w : TW)
    (e : List XEv) (h : x.tw.run (writeObjs ft x.last os).1 = some (w, e)) :
    feed (XmlOut.step ft gen) x (os.map Cb.obj) =
      .ok ⟨w, (writeObjs ft x.last os).2, x.evs ++ e⟩ := by
  induction os generalizing x w e with
  | nil =>
    simp only [writeObjs, TW.run, Option.some.injEq, Prod.mk.injEq] at h
    obtain ⟨rfl, rfl⟩ := h
    simp [feed, writeObjs]
  | cons o os ih =>
    simp only [writeObjs] at h ⊢
    rw [TW.run_append] at h
    simp only [List.map_cons, feed]
    cases h1 : x.tw.run (writeObj ft x.last o).1 with
    | none => rw [h1] at h; simp at h
    | some p =>
      obtain ⟨w1, e1⟩ := p
      rw [h1] at h
      simp only [Option.bind_some] at h
      cases h2 : w1.run (writeObjs ft (writeObj ft x.last o).2 os).1 with
      | none => simp [h2] at h
      | some q =>
        obtain ⟨w2, e2⟩ := q
        rw [h2] at h
        simp only [Option.map_some, Option.some.injEq, Prod.mk.injEq] at h
        obtain ⟨rfl, rfl⟩ := h
        have hs : XmlOut.step ft gen x (.obj o) =
            .ok ⟨w1, (writeObj ft x.last o).2, x.evs ++ e1⟩ := by
          simp [XmlOut.step, XmlOut.calls, h1, bind, Except.bind, pure, Except.pure]
        rw [hs]
        show feed (XmlOut.step ft gen) _ _ = _
        rw [ih _ w2 e2 h2]
        simp

/-- The XML output gets the calls of the protocol: it writes what `xmlWrite` describes. -/
theorem xmlOut_protocol (ft : FileType) (gen : String) (m : Meta) (os : List OsmObj)
    (evs : List XEv) (hw : xmlWrite ft gen m os = some evs) :
    xmlOut ft gen (protocol m os) = .ok evs := by
  unfold xmlOut
  rw [feed_protocol _ (fun _ _ => rfl) (fun _ _ => rfl)]
  unfold xmlWrite writeFile at hw
  simp only [Option.map_eq_some_iff, Prod.exists] at hw
  obtain ⟨w, e, h, rfl⟩ := hw
  rw [TW.run_append, TW.run_append] at h
  cases h1 : TW.init.run (writeInit ft gen m) with
  | none => rw [h1] at h; simp at h
  | some p =>
    obtain ⟨w1, e1⟩ := p
    rw [h1] at h
    simp only [Option.bind_some] at h
    cases h2 : w1.run (writeObjs ft none os).1 with
    | none => rw [h2] at h; simp at h
    | some q =>
      obtain ⟨w2, e2⟩ := q
      rw [h2] at h
      simp only [Option.map_some, Option.bind_some] at h
      cases h3 : w2.run (writeFinal ft (writeObjs ft none os).2) with
      | none => rw [h3] at h; simp at h
      | some q3 =>
        obtain ⟨w3, e3⟩ := q3
        rw [h3] at h
        simp only [Option.map_some, Option.some.injEq, Prod.mk.injEq] at h
        obtain ⟨rfl, rfl⟩ := h
        have hi : XmlOut.step ft gen XmlOut.new (.init m) = .ok ⟨w1, none, e1⟩ := by
          simp [XmlOut.step, XmlOut.calls, XmlOut.new, h1]
        simp only [List.cons_append, feed, hi, bind, Except.bind]
        rw [feed_append, xmlOut_objs ft gen os ⟨w1, none, e1⟩ w2 e2 h2]
        simp [feed, XmlOut.step, XmlOut.calls, h3, bind, Except.bind, pure, Except.pure]

/-! ### PBF output -/

theorem storeBlobs_append (c : BlobCodec) (k : Bool) (a b : List (String × Bytes)) :
    storeBlobs c k (a ++ b) =
      (storeBlobs c k a >>= fun x => storeBlobs c k b >>= fun y => pure (x ++ y)) := by
  induction a with
  | nil =>
    simp only [List.nil_append, storeBlobs, bind, Except.bind, pure, Except.pure]
    cases storeBlobs c k b <;> rfl
  | cons p a ih =>
    obtain ⟨t, d⟩ := p
    simp only [List.cons_append, storeBlobs, ih, bind, Except.bind, pure, Except.pure]
    cases storeBlob c k t d with
    | error e => rfl
    | ok x =>
      simp only
      cases storeBlobs c k a with
      | error e => rfl
      | ok y =>
        simp only
        cases storeBlobs c k b with
        | error e => rfl
        | ok z => simp

/-- The data blobs for a list of blocks. -/
private def dataBlobs (c : PbfCodec) (bs : List PBlock) : List (String × Bytes) :=
  bs.map (fun b => ("OSMData", c.encBlock b))

theorem write_out {lib : PbfLib} {w w' : Writer} {o : OsmObj} {b : Bool}
    (h : w.write lib o = .ok (w', b)) (hb : b = false) : w.out <+: w'.out := by
  subst hb
  have : w.writeAll lib [o] = .ok w' := by
    simp [Writer.writeAll, h, bind, Except.bind]
  exact writeAll_out this

theorem final_out {lib : PbfLib} {w w' : Writer} (h : w.final lib = .ok w') : w.out <+: w'.out := by
  unfold Writer.final at h
  split at h
  · unfold Writer.store at h
    obtain ⟨g, _, h⟩ := except_bind_ok h
    simp only [pure, Except.pure, Except.ok.injEq] at h
    subst h
    exact ⟨_, rfl⟩
  · cases h; exact List.prefix_rfl

theorem pbfOut_objs {lib : PbfLib} {c : PbfCodec} {k : Bool} {ft : FileType} {gen : String}
    (os : List OsmObj) (p q : PbfOut) :
    feed (PbfOut.step lib c k ft gen) p (os.map Cb.obj) = .ok q →
    p.w.writeAll lib os = .ok q.w ∧ p.w.out <+: q.w.out ∧
      ∃ d, storeBlobs c.toBlobCodec k
        ((q.w.out.drop p.w.out.length).map (fun b => ("OSMData", c.encBlock b))) = .ok d ∧
        q.data = p.data ++ d := by
  induction os generalizing p with
  | nil =>
    intro h
    cases h
    exact ⟨rfl, List.prefix_rfl, [], by simp [storeBlobs], by simp⟩
  | cons o os ih =>
    intro h
    simp only [List.map_cons, feed] at h
    obtain ⟨p1, h1, h2⟩ := except_bind_ok h
    obtain ⟨e1, pr, d, e2, e3⟩ := ih p1 h2
    unfold PbfOut.step at h1
    obtain ⟨⟨w, t⟩, hw, h1⟩ := except_bind_ok h1
    cases t with
    | true => simp at h1
    | false =>
      simp only [Bool.false_eq_true, if_false] at h1
      unfold PbfOut.emit at h1
      obtain ⟨b, hb, h1⟩ := except_bind_ok h1
      simp only [pure, Except.pure, Except.ok.injEq] at h1
      subst h1
      simp only at e1 e2 e3 pr
      have po := write_out hw rfl
      refine ⟨by simp [Writer.writeAll, hw, e1, bind, Except.bind], po.trans pr, b ++ d, ?_, by
        rw [e3]; simp⟩
      obtain ⟨x, hx⟩ := po
      obtain ⟨y, hy⟩ := pr
      have s1 : w.out.drop p.w.out.length = x := by rw [← hx]; simp
      have s2 : q.w.out.drop w.out.length = y := by rw [← hy]; simp
      have s3 : q.w.out.drop p.w.out.length = x ++ y := by rw [← hy, ← hx]; simp
      rw [s1] at hb
      rw [s2] at e2
      rw [s3, List.map_append, storeBlobs_append, hb, e2]
      rfl

/-- If the PBF output takes the calls of the protocol without exception, the file is the one
described by `pbfFile`. -/
theorem pbfOut_protocol (lib : PbfLib) (c : PbfCodec) (cfg : PbfCfg) (k : Bool) (ft : FileType)
    (gen : String) (m : Meta) (os : List OsmObj) (data : Bytes)
    (h : pbfOut lib c cfg k ft gen (protocol m os) = .ok data) :
    pbfFile lib c cfg k ft gen m os = .ok data := by
  unfold pbfOut at h
  rw [feed_protocol _ (fun _ _ => rfl) (fun _ _ => rfl)] at h
  obtain ⟨p, hf, hd⟩ := except_bind_ok h
  clear h
  have h := hf
  clear hf
  simp only [pure, Except.pure, Except.ok.injEq] at hd
  subst hd
  simp only [List.cons_append, feed] at h
  obtain ⟨p0, h0, h⟩ := except_bind_ok h
  rw [feed_append] at h
  obtain ⟨p1, h1, h⟩ := except_bind_ok h
  simp only [feed] at h
  obtain ⟨p2, h2, h⟩ := except_bind_ok h
  cases h
  simp only [PbfOut.step] at h0 h2
  obtain ⟨b0, hb0, h0⟩ := except_bind_ok h0
  simp only [pure, Except.pure, Except.ok.injEq] at h0
  subst h0
  obtain ⟨e1, pr, d, e2, e3⟩ := pbfOut_objs os _ _ h1
  simp only [List.nil_append] at e1 e2 e3
  obtain ⟨w2, hw2, h2⟩ := except_bind_ok h2
  unfold PbfOut.emit at h2
  obtain ⟨b, hb, h2⟩ := except_bind_ok h2
  simp only [pure, Except.pure, Except.ok.injEq] at h2
  subst h2
  obtain ⟨y, hy⟩ := final_out hw2
  have s2 : w2.out.drop p1.w.out.length = y := by rw [← hy]; simp
  have hn : (Writer.new cfg).out = [] := rfl
  rw [s2] at hb
  rw [hn, List.length_nil, List.drop_zero] at e2
  unfold pbfFile pbfBlocks
  simp only [e1, hw2, bind, Except.bind, pure, Except.pure]
  rw [← hy, List.map_append]
  have := storeBlobs_append c.toBlobCodec k
    (("OSMHeader", c.encHeader (headerMsg cfg ft gen m)) ::
      p1.w.out.map (fun b => ("OSMData", c.encBlock b))) (y.map (fun b => ("OSMData", c.encBlock b)))
  rw [List.cons_append] at this
  rw [this]
  have h0' := storeBlobs_append c.toBlobCodec k
    [("OSMHeader", c.encHeader (headerMsg cfg ft gen m))]
    (p1.w.out.map (fun b => ("OSMData", c.encBlock b)))
  rw [List.cons_append, List.nil_append] at h0'
  rw [h0', show storeBlobs c.toBlobCodec k [("OSMHeader", c.encHeader (headerMsg cfg ft gen m))] = .ok b0
    from hb0, e2, hb]
  simp [bind, Except.bind, pure, Except.pure, e3]

/-- C68: a conversion succeeds only if the input was read to the end without an error, and the output
took all callbacks; an error of the reader is reported. -/
theorem convert_ok_iff {α : Type} (r : List Cb × ParseEnd) (out : List Cb → Res α) (a : α) :
    convert r out = .ok a ↔ r.2 = .returned ∧ out r.1 = .ok a := by
  obtain ⟨cs, e⟩ := r
  unfold convert
  cases h : out cs with
  | error f => simp [bind, Except.bind]
  | ok b => cases e <;> simp [bind, Except.bind, pure, Except.pure]

example : convert ([.init (Meta.new false)], .threw (.exn "read error")) (xmlOut .osm "x") ≠ .ok [] := by
  rw [Ne, convert_ok_iff]; simp

end Osmium
