import Verif.OsmFile.Model

/-
C49, C50: type and encoding of files from their names.
-/
namespace Osmium

namespace Spec

/-- The documented suffixes. -/
def knownSuffixes : List (List Char × (FileType × FileEncoding)) :=
  [("pbf".toList, (.osm, .pbf)), ("osm.pbf".toList, (.osm, .pbf)), ("osm".toList, (.osm, .xml)),
   ("osm.bz2".toList, (.osm, .xmlbz2)), ("osm.gz".toList, (.osm, .xmlgz)),
   ("osh.pbf".toList, (.history, .pbf)), ("osh".toList, (.history, .xml)),
   ("osh.bz2".toList, (.history, .xmlbz2)), ("osh.gz".toList, (.history, .xmlgz)),
   ("osc".toList, (.change, .xml)), ("osc.bz2".toList, (.change, .xmlbz2)),
   ("osc.gz".toList, (.change, .xmlgz))]

/-- The last component of a path. -/
def lastComponent (name : List Char) : List Char := (name.reverse.takeWhile (fun c => c ≠ '/')).reverse

/-- What comes after the first dot of the last component; empty if there is none. -/
def suffixOf (name : List Char) : List Char := ((lastComponent name).dropWhile (fun c => c ≠ '.')).drop 1

/-- The name is a URL. -/
def IsUrl (name : List Char) : Prop := "http:".toList <+: name ∨ "https:".toList <+: name

instance (name : List Char) : Decidable (IsUrl name) := by unfold IsUrl; infer_instance

/-- Type and encoding for a name. -/
def settingsOf (name : List Char) : FileType × FileEncoding :=
  if name = [] ∨ name = "-".toList then (.osm, .pbf)
  else if IsUrl name then (.osm, .xml)
  else (knownSuffixes.lookup (suffixOf name)).getD (.osm, .pbf)

end Spec

open Spec

theorem findFirstOf_none (s : List Char) (c : Char) (pos : Nat) :
    findFirstOf s c pos = none ↔ c ∉ s.drop pos := by
  unfold findFirstOf
  simp only [Option.map_eq_none_iff, List.findIdx?_eq_none_iff, beq_eq_false_iff_ne, ne_eq]
  constructor
  · intro h hm; exact h c hm rfl
  · intro h x hx e; exact h (e ▸ hx)

theorem findFirstOf_append (a b : List Char) (c : Char) (pos : Nat) (hp : pos ≤ a.length)
    (h : c ∉ a.drop pos) : findFirstOf (a ++ c :: b) c pos = some a.length := by
  unfold findFirstOf
  have e : (a ++ c :: b).drop pos = a.drop pos ++ c :: b := List.drop_append_of_le_length hp
  have : ((a.drop pos) ++ c :: b).findIdx? (fun d => d == c) = some (a.drop pos).length := by
    rw [List.findIdx?_append]
    have : (a.drop pos).findIdx? (fun d => d == c) = none := by
      rw [List.findIdx?_eq_none_iff]
      intro x hx
      simp only [beq_eq_false_iff_ne, ne_eq]
      rintro rfl; exact h hx
    rw [this]
    simp [List.findIdx?_cons]
  rw [e, this]
  simp only [List.length_drop, Option.map_some, Option.some.injEq]
  omega

theorem findLastOf_none {s : List Char} {c : Char} (h : c ∉ s) : findLastOf s c = none := by
  unfold findLastOf
  simp only [Option.map_eq_none_iff, List.findIdx?_eq_none_iff, beq_eq_false_iff_ne, ne_eq, List.mem_reverse]
  intro x hx e; exact h (e ▸ hx)

theorem findLastOf_append (a b : List Char) (c : Char) (h : c ∉ b) :
    findLastOf (a ++ c :: b) c = some a.length := by
  unfold findLastOf
  have e : (a ++ c :: b).reverse = b.reverse ++ c :: a.reverse := by simp
  have := findFirstOf_append b.reverse a.reverse c 0 (by omega) (by simpa using h)
  unfold findFirstOf at this
  simp only [List.drop_zero, Option.map_eq_some_iff, Nat.add_zero, exists_eq_right] at this
  rw [e, this]
  simp

theorem takeWhile_no {s : List Char} {c : Char} (h : c ∉ s) : s.takeWhile (fun d => d ≠ c) = s := by
  induction s with
  | nil => rfl
  | cons x xs ih =>
    rw [List.takeWhile_cons_of_pos, ih (fun hm => h (by simp [hm]))]
    simp only [ne_eq, decide_eq_true_eq]
    rintro rfl
    exact h (by simp)

theorem takeWhile_first {a : List Char} {c : Char} (b : List Char) (h : c ∉ a) :
    (a ++ c :: b).takeWhile (fun d => d ≠ c) = a := by
  induction a with
  | nil => simp
  | cons x xs ih =>
    rw [List.cons_append, List.takeWhile_cons_of_pos, ih (fun hm => h (by simp [hm]))]
    simp only [ne_eq, decide_eq_true_eq]
    rintro rfl
    exact h (by simp)

theorem dropWhile_no {s : List Char} {c : Char} (h : c ∉ s) : s.dropWhile (fun d => d ≠ c) = [] := by
  induction s with
  | nil => rfl
  | cons x xs ih =>
    rw [List.dropWhile_cons_of_pos, ih (fun hm => h (by simp [hm]))]
    simp only [ne_eq, decide_eq_true_eq]
    rintro rfl
    exact h (by simp)

theorem dropWhile_first {a : List Char} {c : Char} (b : List Char) (h : c ∉ a) :
    (a ++ c :: b).dropWhile (fun d => d ≠ c) = c :: b := by
  induction a with
  | nil => simp
  | cons x xs ih =>
    rw [List.cons_append, List.dropWhile_cons_of_pos, ih (fun hm => h (by simp [hm]))]
    simp only [ne_eq, decide_eq_true_eq]
    rintro rfl
    exact h (by simp)

theorem lastComponent_no {name : List Char} (h : '/' ∉ name) : lastComponent name = name := by
  unfold lastComponent
  rw [takeWhile_no (by simpa using h), List.reverse_reverse]

theorem lastComponent_append (dir : List Char) {base : List Char} (h : '/' ∉ base) :
    lastComponent (dir ++ '/' :: base) = base := by
  unfold lastComponent
  have e : (dir ++ '/' :: base).reverse = base.reverse ++ '/' :: dir.reverse := by simp
  rw [e, takeWhile_first _ (by simpa using h), List.reverse_reverse]

/-- A name split at its last slash. -/
theorem split_last (name : List Char) :
    '/' ∉ name ∨ ∃ dir base, name = dir ++ '/' :: base ∧ '/' ∉ base := by
  by_cases h : '/' ∈ name
  · right
    obtain ⟨l, r, e, hl⟩ := List.eq_append_cons_of_mem (List.mem_reverse.2 h)
    refine ⟨r.reverse, l.reverse, ?_, by simpa using hl⟩
    rw [← List.reverse_reverse name, e]
    simp
  · exact .inl h

/-- A name split at the first dot of a part. -/
theorem split_dot (base : List Char) : '.' ∉ base ∨ ∃ stem suf, base = stem ++ '.' :: suf ∧ '.' ∉ stem := by
  by_cases h : '.' ∈ base
  · exact .inr (List.eq_append_cons_of_mem h)
  · exact .inl h

theorem drop_past (a : List Char) (c : Char) (b : List Char) : (a ++ c :: b).drop (a.length + 1) = b := by
  rw [show a ++ c :: b = (a ++ [c]) ++ b by simp, List.drop_left' (by simp)]

/-- The suffix as the code finds it. -/
theorem fileSuffix_eq (name : List Char) :
    fileSuffix name = if '.' ∈ lastComponent name then suffixOf name else name := by
  unfold suffixOf
  rcases split_last name with h | ⟨dir, base, rfl, h⟩
  · rw [lastComponent_no h]
    unfold fileSuffix
    rw [findLastOf_none h]
    simp only
    rcases split_dot name with h2 | ⟨stem, suf, rfl, h2⟩
    · rw [(findFirstOf_none name '.' 0).2 (by simpa using h2), if_neg h2]
    · rw [findFirstOf_append _ _ _ _ (by omega) (by simpa using h2), if_pos (by simp), dropWhile_first _ h2]
      simp [List.drop_append]
  · rw [lastComponent_append dir h]
    unfold fileSuffix
    rw [findLastOf_append _ _ _ h]
    simp only
    rcases split_dot base with h2 | ⟨stem, suf, rfl, h2⟩
    · rw [(findFirstOf_none _ '.' _).2 (by rw [drop_past]; exact h2), if_neg h2]
    · have e : dir ++ '/' :: (stem ++ '.' :: suf) = (dir ++ '/' :: stem) ++ '.' :: suf := by simp
      rw [e, findFirstOf_append _ _ _ _ (by simp) (by rw [drop_past]; exact h2),
        if_pos (by simp), dropWhile_first _ h2]
      simp only [drop_past]
      rfl

theorem typeAndEncoding_eq (suffix : List Char) :
    typeAndEncoding suffix = (knownSuffixes.lookup suffix).getD (.osm, .pbf) := by
  unfold typeAndEncoding knownSuffixes
  simp only [List.lookup_cons, List.lookup_nil]
  by_cases h0 : suffix = "pbf".toList
  · subst h0; decide +kernel
  by_cases h1 : suffix = "osm.pbf".toList
  · subst h1; decide +kernel
  rw [if_neg (by simp only [h0, h1, or_self, not_false_eq_true])]
  simp only [beq_eq_false_iff_ne.2 h0, beq_eq_false_iff_ne.2 h1]
  repeat' split
  all_goals first | rfl | (subst_vars; simp_all)

theorem fileProtocol_eq (name : List Char) (p : List Char) (hp : ':' ∉ p) :
    fileProtocol name = p ↔ (p ++ [':']) <+: name ∨ (name = p) := by
  unfold fileProtocol
  by_cases h : ':' ∈ name
  · obtain ⟨a, b, rfl, ha⟩ := List.eq_append_cons_of_mem h
    rw [findFirstOf_append _ _ _ _ (by omega) (by simpa using ha)]
    simp only [List.take_left']
    constructor
    · rintro rfl
      exact .inl ⟨b, by simp⟩
    · rintro (⟨t, ht⟩ | e)
      · have h1 := takeWhile_first t hp
        have h2 := takeWhile_first b ha
        rw [← ht] at h2
        rw [List.append_assoc, List.singleton_append] at h2
        rw [h1] at h2
        exact h2.symm
      · exact absurd (e ▸ h) hp
  · rw [(findFirstOf_none _ _ _).2 (by simpa using h)]
    simp only
    constructor
    · intro e; exact .inr e
    · rintro (⟨t, ht⟩ | e)
      · exact absurd (by rw [← ht]; simp) h
      · exact e

/-- C49 (partial: not for the file names `http` and `https`, nor for the names in the list of suffixes
themselves, like `osm`): type and encoding for every name; the name is kept, except that `-` is
replaced by the empty string. -/
theorem file_settings_partial (name : List Char) (h1 : name ≠ "http".toList) (h2 : name ≠ "https".toList)
    (h3 : name ∉ knownSuffixes.map Prod.fst ∨ '.' ∈ lastComponent name) :
    FileInfo.ofName name =
      ⟨(settingsOf name).1, (settingsOf name).2, if name = "-".toList then [] else name⟩ := by
  unfold FileInfo.ofName settingsOf
  by_cases h : name = [] ∨ name = "-".toList
  · rw [if_pos h, if_pos h]
    rcases h with rfl | rfl
    · rfl
    · rfl
  · rw [if_neg h, if_neg h]
    have hu : (fileProtocol name = "http".toList ∨ fileProtocol name = "https".toList) ↔ IsUrl name := by
      rw [fileProtocol_eq _ _ (by decide +kernel), fileProtocol_eq _ _ (by decide +kernel)]
      unfold IsUrl
      simp only [h1, h2, or_false]
      exact Iff.rfl
    push Not at h
    rw [if_neg h.2]
    by_cases hU : IsUrl name
    · rw [if_pos (hu.2 hU), if_pos hU]
    · rw [if_neg (fun h => hU (hu.1 h)), if_neg hU]
      have e : typeAndEncoding (fileSuffix name) = (knownSuffixes.lookup (suffixOf name)).getD (.osm, .pbf) := by
        rw [typeAndEncoding_eq, fileSuffix_eq]
        split
        · rfl
        · rename_i hd
          have hn : knownSuffixes.lookup name = none := by
            rcases h3 with h3 | h3
            · rw [List.lookup_eq_none_iff]
              intro p hp
              simp only [beq_eq_false_iff_ne, ne_eq, bne_iff_ne]
              intro e
              exact h3 (List.mem_map.2 ⟨p, hp, e.symm⟩)
            · exact absurd h3 hd
          have hs : suffixOf name = [] := by
            unfold suffixOf
            rw [dropWhile_no hd]
            rfl
          rw [hn, hs]
          decide +kernel
      rw [e]

/-- Directories with dots do not matter, and a dot in front is a suffix as well. -/
example : (FileInfo.ofName "data.osm/planet.v1/x.osh.gz".toList).type = .history ∧
    (FileInfo.ofName "data.osm/planet.v1/x.osh.gz".toList).encoding = .xmlgz ∧
    (FileInfo.ofName "data.osm/x".toList).encoding = .pbf ∧
    (FileInfo.ofName ".osc".toList).type = .change ∧
    (FileInfo.ofName "https://host/x.osm.pbf".toList).encoding = .xml := by decide +kernel

/-- C49 fails for names without a suffix: a file called `osm` or `http` is taken for XML, the latter
for a URL, although neither has a suffix; `dir/osm` is not. -/
theorem file_settings_no_suffix :
    FileInfo.ofName "osc".toList = ⟨.change, .xml, "osc".toList⟩ ∧
    FileInfo.ofName "dir/osc".toList = ⟨.osm, .pbf, "dir/osc".toList⟩ ∧
    FileInfo.ofName "http".toList = ⟨.osm, .xml, "http".toList⟩ ∧
    settingsOf "osc".toList = (.osm, .pbf) ∧ settingsOf "http".toList = (.osm, .pbf) := by decide +kernel

/-! ### C50 -/

theorem withoutSuffix_eq (f : FileInfo) : f.withoutSuffix = f.filename.takeWhile (fun c => c ≠ '.') := by
  unfold FileInfo.withoutSuffix
  rcases split_dot f.filename with h | ⟨a, b, e, h⟩
  · rw [(findFirstOf_none _ _ _).2 (by simpa using h), takeWhile_no h]
  · rw [e, findFirstOf_append _ _ _ _ (by omega) (by simpa using h), takeWhile_first _ h]
    simp

theorem withoutSuffix_no_dot (f : FileInfo) : '.' ∉ f.withoutSuffix := by
  rw [withoutSuffix_eq]
  intro h
  rcases split_dot f.filename with h1 | ⟨a, b, e, h1⟩
  · exact h1 ((List.takeWhile_prefix _).subset h)
  · rw [e, takeWhile_first _ h1] at h
    exact h1 h

/-- C50 (partial: not for change files in PBF, nor for URLs): the name with the default suffix gives
back type and encoding, and has the same name without suffix. -/
theorem default_suffix_round_trip_partial (f : FileInfo) (hu : ¬ IsUrl f.filename)
    (h : ¬ (f.type = .change ∧ f.encoding = .pbf)) :
    FileInfo.ofName f.withDefaultSuffix = ⟨f.type, f.encoding, f.withDefaultSuffix⟩ ∧
    (FileInfo.ofName f.withDefaultSuffix).withoutSuffix = f.withoutSuffix := by
  have hd := withoutSuffix_no_dot f
  have hpre : f.withoutSuffix <+: f.filename := by
    rw [withoutSuffix_eq]; exact List.takeWhile_prefix _
  obtain ⟨suf, hs, h1, h2⟩ : ∃ suf, f.type.suffix.toList ++ f.encoding.suffix = '.' :: suf ∧ '/' ∉ suf ∧ ':' ∉ suf := by
    cases f.type <;> cases f.encoding <;> exact ⟨_, rfl, by decide +kernel, by decide +kernel⟩
  have hk : knownSuffixes.lookup suf = some (f.type, f.encoding) := by
    cases ht : f.type <;> cases he : f.encoding <;>
      simp only [ht, he, and_self, not_true_eq_false] at h <;>
      (rw [ht, he] at hs; injection hs with _ hs; subst hs; decide +kernel)
  have hname : f.withDefaultSuffix = f.withoutSuffix ++ '.' :: suf := by
    unfold FileInfo.withDefaultSuffix
    rw [hs]
  generalize f.withoutSuffix = base at hd hpre hname ⊢
  have hmem : '.' ∈ f.withDefaultSuffix := by rw [hname]; simp
  have hsuf : '.' ∈ lastComponent f.withDefaultSuffix ∧ suffixOf f.withDefaultSuffix = suf := by
    rw [hname]
    unfold suffixOf
    rcases split_last base with hb | ⟨dir, b, rfl, hb⟩
    · rw [lastComponent_no (by simp [hb, h1]), dropWhile_first _ hd]
      simp
    · have e : dir ++ '/' :: b ++ '.' :: suf = dir ++ '/' :: (b ++ '.' :: suf) := by simp
      rw [e, lastComponent_append _ (by simp [hb, h1]), dropWhile_first _ (fun hm => hd (by simp [hm]))]
      simp
  have hurl : ¬ IsUrl f.withDefaultSuffix := by
    intro hU
    apply hu
    -- the colon is in the part without suffix
    have key : ∀ p : List Char, '.' ∉ p → (p ++ [':']) <+: f.withDefaultSuffix → (p ++ [':']) <+: f.filename := by
      intro p hp hpp
      refine List.IsPrefix.trans ?_ hpre
      rw [hname] at hpp
      obtain ⟨t, ht⟩ := hpp
      rcases List.append_eq_append_iff.1 ht with ⟨a, h1, -⟩ | ⟨a, h1, h2⟩
      · exact ⟨a, h1.symm⟩
      · cases a with
        | nil => exact ⟨[], by simpa using h1⟩
        | cons x xs =>
          injection h2 with h2 _
          subst h2
          exact absurd (show '.' ∈ p ++ [':'] by rw [h1]; simp) (by simp [hp])
    rcases hU with hU | hU
    · exact .inl (key "http".toList (by decide +kernel) hU)
    · exact .inr (key "https".toList (by decide +kernel) hU)
  have key : FileInfo.ofName f.withDefaultSuffix = ⟨f.type, f.encoding, f.withDefaultSuffix⟩ := by
    rw [file_settings_partial _ _ _ (.inr hsuf.1)]
    · have hset : settingsOf f.withDefaultSuffix = (f.type, f.encoding) := by
        unfold settingsOf
        rw [if_neg, if_neg hurl, hsuf.2, hk]
        · rfl
        · rintro (e | e) <;> (rw [e] at hmem; revert hmem; decide +kernel)
      rw [hset, if_neg]
      intro e
      rw [e] at hmem; revert hmem; decide +kernel
    · intro e
      rw [e] at hmem; revert hmem; decide +kernel
    · intro e
      rw [e] at hmem; revert hmem; decide +kernel
  refine ⟨key, ?_⟩
  rw [key, withoutSuffix_eq]
  simp only
  rw [hname, takeWhile_first _ hd]

/-- The hypotheses are met by ordinary names, also with a directory. -/
example : (FileInfo.mk .history .xmlbz2 "data/planet.osm".toList).withDefaultSuffix = "data/planet.osh.bz2".toList ∧
    ¬ IsUrl "data/planet.osm".toList := by decide +kernel

/-- C50 fails for change files in PBF: the suffix is not recognised. -/
theorem default_suffix_change_pbf :
    let f : FileInfo := ⟨.change, .pbf, "x".toList⟩
    f.withDefaultSuffix = "x.osc.pbf".toList ∧
    FileInfo.ofName f.withDefaultSuffix = ⟨.osm, .pbf, "x.osc.pbf".toList⟩ := by decide +kernel

/-- A name in a directory with a dot loses more than its suffix. -/
theorem without_suffix_dot_directory :
    (FileInfo.ofName "../data/x.osm".toList).withoutSuffix = [] ∧
    (FileInfo.ofName "../data/x.osm".toList).withDefaultSuffix = ".osm".toList ∧
    (FileInfo.ofName "v1.2/x.osm".toList).withDefaultSuffix = "v1.osm".toList := by decide +kernel

/-- Only the file name changes for a name without dots in front of the suffix: `base.osm` becomes
`base` and the default suffix. -/
theorem without_suffix_exact (t : FileType) (e : FileEncoding) (base suf : List Char) (h : '.' ∉ base) :
    (FileInfo.mk t e (base ++ '.' :: suf)).withoutSuffix = base ∧
    (FileInfo.mk t e base).withoutSuffix = base := by
  rw [withoutSuffix_eq, withoutSuffix_eq]
  exact ⟨takeWhile_first _ h, takeWhile_no h⟩

example : '.' ∉ "data/planet".toList := by decide +kernel

/-- C49: the types and encodings that can be set by name. -/
theorem set_type_spec (f : FileInfo) (t : List Char) :
    f.setType t =
      match [("osm".toList, FileType.osm), ("history".toList, .history), ("osh".toList, .history),
        ("change".toList, .change), ("osc".toList, .change)].lookup t with
      | some t => .ok { f with type := t }
      | none => .error (.exn "Unknown OSM file type") := by
  unfold FileInfo.setType
  simp only [List.lookup_cons, List.lookup_nil]
  by_cases h1 : t = "osm".toList
  · subst h1; rfl
  by_cases h2 : t = "history".toList
  · subst h2; rfl
  by_cases h3 : t = "osh".toList
  · subst h3; rfl
  by_cases h4 : t = "change".toList
  · subst h4; rfl
  by_cases h5 : t = "osc".toList
  · subst h5; rfl
  simp only [h1, h2, h3, h4, h5, or_self, if_false, beq_eq_false_iff_ne.2 h1, beq_eq_false_iff_ne.2 h2,
    beq_eq_false_iff_ne.2 h3, beq_eq_false_iff_ne.2 h4, beq_eq_false_iff_ne.2 h5]

theorem set_encoding_spec (f : FileInfo) (t : List Char) :
    f.setEncoding t =
      match [("pbf".toList, FileEncoding.pbf), ("xml".toList, .xml), ("xmlgz".toList, .xmlgz),
        ("gz".toList, .xmlgz), ("xmlbz2".toList, .xmlbz2), ("bz2".toList, .xmlbz2)].lookup t with
      | some e => .ok { f with encoding := e }
      | none => .error (.exn "Unknown OSM file encoding") := by
  unfold FileInfo.setEncoding
  simp only [List.lookup_cons, List.lookup_nil]
  by_cases h1 : t = "pbf".toList
  · subst h1; rfl
  by_cases h2 : t = "xml".toList
  · subst h2; rfl
  by_cases h3 : t = "xmlgz".toList
  · subst h3; rfl
  by_cases h4 : t = "gz".toList
  · subst h4; rfl
  by_cases h5 : t = "xmlbz2".toList
  · subst h5; rfl
  by_cases h6 : t = "bz2".toList
  · subst h6; rfl
  simp only [h1, h2, h3, h4, h5, h6, or_self, if_false, beq_eq_false_iff_ne.2 h1, beq_eq_false_iff_ne.2 h2,
    beq_eq_false_iff_ne.2 h3, beq_eq_false_iff_ne.2 h4, beq_eq_false_iff_ne.2 h5, beq_eq_false_iff_ne.2 h6]

/-- **C49** (changing the name): a file given another name keeps its type and encoding, and then names the same
file (or standard input or output) as one made from that name. -/
theorem set_filename_spec (f : FileInfo) (name : List Char) :
    (f.setFilename name).type = f.type ∧ (f.setFilename name).encoding = f.encoding ∧
    (f.setFilename name).filename = (if name = ['-'] then [] else name) ∧
    (f.setFilename name).filename = (FileInfo.ofName name).filename := by
  refine ⟨rfl, rfl, rfl, ?_⟩
  unfold FileInfo.setFilename FileInfo.ofName
  by_cases h1 : name = "-".toList
  · simp only [h1, or_true, if_true]
  · by_cases h2 : name = []
    · subst h2; rfl
    · simp only [h1, h2, or_self, if_false]
      split <;> rfl

example : (FileInfo.mk .osm .xml "a.osm".toList).setFilename "-".toList = ⟨.osm, .xml, []⟩ := by decide

end Osmium
