import Verif.Tags.Model

/-
C52, C53: tag filters and the text forms of tag lists.
-/
namespace Osmium

namespace Spec

/-- The first element that matches decides. -/
def firstMatch {R : Type} (matches_ : R → Prop) [DecidablePred matches_] (rules : List (Bool × R)) (default : Bool) : Bool :=
  ((rules.find? (fun r => decide (matches_ r.2))).map Prod.fst).getD default

/-! A reader of the hstore syntax. -/

/-- The rest of a quoted string: a backslash takes the next character as it is, a quote ends it. -/
def hstoreString : List Char → Option (List Char × List Char)
  | [] => none
  | '"' :: rest => some ([], rest)
  | '\\' :: c :: rest => (hstoreString rest).map fun p => (c :: p.1, p.2)
  | ['\\'] => none
  | c :: rest => (hstoreString rest).map fun p => (c :: p.1, p.2)

/-- `"key"=>"value"`. -/
def hstorePair (s : List Char) : Option ((List Char × List Char) × List Char) :=
  match s with
  | '"' :: s =>
    match hstoreString s with
    | some (k, '=' :: '>' :: '"' :: s) => (hstoreString s).map fun p => ((k, p.1), p.2)
    | _ => none
  | _ => none

/-- Pairs separated by commas; the first argument only bounds the number of pairs. -/
def hstorePairs : Nat → List Char → Option (List (List Char × List Char))
  | 0, _ => none
  | n + 1, s =>
    match hstorePair s with
    | some (p, []) => some [p]
    | some (p, ',' :: s) => (hstorePairs n s).map fun ps => p :: ps
    | _ => none

/-- The whole text. -/
def hstoreParse (s : List Char) : Option (List (List Char × List Char)) :=
  if s = [] then some [] else hstorePairs s.length s

end Spec

open Spec

/-! ### C52 -/

theorem keyFilter_firstMatch (f : KeyFilter) (t : Tag) :
    f.apply t = firstMatch (fun key => t.key = key) f.rules f.default := by
  unfold KeyFilter.apply firstMatch
  obtain ⟨rules, d⟩ := f
  induction rules with
  | nil => rfl
  | cons r rules ih =>
    obtain ⟨b, key⟩ := r
    simp only at ih
    simp only [keyFilterLoop, List.find?_cons]
    by_cases h : t.key = key
    · simp [h]
    · simp [h, ih]

/-- C52, key filters: the first rule with the key of the tag decides, in the order in which they were
added, else the default. -/
theorem key_filter_decides (default : Bool) (rules : List (Bool × String)) (t : Tag) :
    (rules.foldl (fun f r => KeyFilter.add f r.1 r.2) (KeyFilter.new default)).apply t =
      firstMatch (fun key => t.key = key) rules default := by
  have : ∀ f : KeyFilter, rules.foldl (fun f r => KeyFilter.add f r.1 r.2) f = ⟨f.rules ++ rules, f.default⟩ := by
    induction rules with
    | nil => intro f; simp
    | cons r rules ih => intro f; rw [List.foldl_cons, ih]; simp [KeyFilter.add]
  rw [this, keyFilter_firstMatch]
  rfl

/-- C52, key/value filters: a rule without value (or with an empty one) matches all values. -/
theorem key_value_filter_decides (default : Bool) (rules : List (Bool × String × Option String)) (t : Tag) :
    (rules.foldl (fun f r => KeyValueFilter.add f r.1 r.2.1 r.2.2) (KeyValueFilter.new default)).apply t =
      firstMatch (fun kv : String × Option String => t.key = kv.1 ∧
        (kv.2 = none ∨ kv.2 = some "" ∨ kv.2 = some t.value)) rules default := by
  have h1 : ∀ f : KeyValueFilter, rules.foldl (fun f r => KeyValueFilter.add f r.1 r.2.1 r.2.2) f =
      ⟨f.rules ++ rules.map (fun r => (r.1, r.2.1, r.2.2.getD "")), f.default⟩ := by
    induction rules with
    | nil => intro f; simp
    | cons r rules ih => intro f; rw [List.foldl_cons, ih]; simp [KeyValueFilter.add]
  rw [h1]
  unfold KeyValueFilter.apply firstMatch
  simp only [KeyValueFilter.new, List.nil_append]
  clear h1
  induction rules with
  | nil => rfl
  | cons r rules ih =>
    obtain ⟨b, key, value⟩ := r
    simp only [List.map_cons, keyValueFilterLoop, List.find?_cons]
    have hiff : (t.key = key ∧ (value.getD "" = "" ∨ t.value = value.getD "")) ↔
        (t.key = key ∧ (value = none ∨ value = some "" ∨ value = some t.value)) := by
      cases value with
      | none => simp
      | some v => simp [eq_comm]
    by_cases h : t.key = key ∧ (value = none ∨ value = some "" ∨ value = some t.value)
    · rw [if_pos (hiff.2 h)]; simp [h]
    · rw [if_neg (fun h' => h (hiff.1 h')), ih]; simp [h]

/-- C52, filters with regular expressions, whatever they match. -/
theorem regex_filter_decides {R : Type} (match_ : R → String → Bool) (default : Bool)
    (rules : List (Bool × R × Option R)) (t : Tag) :
    regexFilterLoop match_ t default rules =
      firstMatch (fun kv : R × Option R => match_ kv.1 t.key = true ∧ ∀ v ∈ kv.2, match_ v t.value = true)
        rules default := by
  unfold firstMatch
  induction rules with
  | nil => rfl
  | cons r rules ih =>
    obtain ⟨b, key, value⟩ := r
    simp only [regexFilterLoop, List.find?_cons, ih]
    cases value with
    | none => by_cases h : match_ key t.key = true <;> simp [h]
    | some v =>
      by_cases h : match_ key t.key = true <;> by_cases h2 : match_ v t.value = true <;> simp [h, h2]

/-- C52: iterating with a filter yields exactly the accepted tags, in order. -/
theorem filter_iterate_exact (p : Tag → Bool) (tags : TagList) : filterIterate p tags = List.filter p tags := by
  induction tags with
  | nil => rfl
  | cons t ts ih => simp only [filterIterate, List.filter_cons, ih]

theorem filter_and_accumulate_exact {A : Type} (tags : TagList) (p : Tag → Bool) (init : A) (op : A → Tag → A) :
    filterAndAccumulate tags p init op = (List.filter p tags).foldl op init := by
  unfold filterAndAccumulate; rw [filter_iterate_exact]

/-- Rules of which the first and a later one match; the default. -/
example :
    ([(false, "source"), (true, "highway"), (false, "highway")].foldl (fun f r => KeyFilter.add f r.1 r.2)
      (KeyFilter.new true)).apply ⟨"highway", "x"⟩ = true ∧
    firstMatch (fun kv : String × Option String => "highway" = kv.1 ∧
        (kv.2 = none ∨ kv.2 = some "" ∨ kv.2 = some "bridleway"))
      [(true, "highway", some "primary"), (false, "highway", none)] true = false := by decide +kernel

/-! ### C53 -/

theorem appendEscaped_eq (escape out s : List Char) :
    appendEscaped escape out s = out ++ s.flatMap (fun c => if c ∈ escape then ['\\', c] else [c]) := by
  induction s generalizing out with
  | nil => simp [appendEscaped]
  | cons c cs ih =>
    rw [appendEscaped, ih, List.flatMap_cons]
    by_cases h : c ∈ escape <;> simp [h]

/-- The escaped form of a string for hstore. -/
def hstoreEscape (s : List Char) : List Char := s.flatMap fun c => if c ∈ ['\\', '"'] then ['\\', c] else [c]

theorem hstoreString_escape (s rest : List Char) :
    hstoreString (hstoreEscape s ++ '"' :: rest) = some (s, rest) := by
  induction s with
  | nil => simp [hstoreEscape, hstoreString]
  | cons c cs ih =>
    unfold hstoreEscape at ih ⊢
    rw [List.flatMap_cons]
    by_cases h1 : c = '\\'
    · subst h1
      rw [if_pos (by simp)]
      simp only [List.cons_append, List.nil_append, hstoreString]
      rw [ih]; rfl
    · by_cases h2 : c = '"'
      · subst h2
        rw [if_pos (by simp)]
        simp only [List.cons_append, List.nil_append, hstoreString]
        rw [ih]; rfl
      · have : c ∉ ['\\', '"'] := by simp [h1, h2]
        rw [if_neg this, List.singleton_append, List.cons_append, hstoreString, ih]
        · rfl
        · exact fun e => h2 e
        · intro d rest' e; exact absurd e h1
        · intro e; exact absurd e h1

theorem hstore_apply (out : List Char) (t : Tag) :
    hstoreOp.apply out t = (if out ≠ [] then out ++ [','] else []) ++
      ('"' :: hstoreEscape t.key.toList ++ ['"', '=', '>', '"'] ++ hstoreEscape t.value.toList ++ ['"']) := by
  unfold TagToString.apply hstoreOp hstoreEscape
  simp only [appendEscaped_eq]
  by_cases h : out = [] <;> simp [h]

/-- The text of one tag. -/
def hstoreTag (t : Tag) : List Char :=
  '"' :: hstoreEscape t.key.toList ++ ['"', '=', '>', '"'] ++ hstoreEscape t.value.toList ++ ['"']

theorem hstorePair_tag (t : Tag) (rest : List Char) :
    hstorePair (hstoreTag t ++ rest) = some ((t.key.toList, t.value.toList), rest) := by
  have e : hstoreTag t ++ rest = '"' :: (hstoreEscape t.key.toList ++ '"' :: ('=' :: '>' :: '"' ::
      (hstoreEscape t.value.toList ++ '"' :: rest))) := by simp [hstoreTag]
  rw [e]
  simp only [hstorePair, hstoreString_escape]
  rfl

/-- All tags, with commas between them. -/
theorem hstore_all (tags : TagList) :
    hstoreOp.all tags = ((tags.map hstoreTag).intersperse [',']).flatten := by
  have gen : ∀ (tags : TagList) (out : List Char), out ≠ [] →
      tags.foldl hstoreOp.apply out = out ++ (tags.map fun t => ',' :: hstoreTag t).flatten := by
    intro tags
    induction tags with
    | nil => intro out _; simp
    | cons t ts ih =>
      intro out h
      rw [List.foldl_cons, ih _ (by rw [hstore_apply]; simp), hstore_apply, if_pos h]
      simp [hstoreTag]
  cases tags with
  | nil => rfl
  | cons t ts =>
    unfold TagToString.all
    rw [List.foldl_cons, gen _ _ (by rw [hstore_apply]; simp), hstore_apply]
    simp only [ne_eq, not_true_eq_false, if_false, List.nil_append, List.map_cons]
    change hstoreTag t ++ _ = _
    clear gen
    induction ts generalizing t with
    | nil => simp
    | cons u us ih =>
      rw [List.map_cons, List.flatten_cons, List.map_cons, List.intersperse_cons₂]
      simp only [List.flatten_cons]
      rw [← ih u]
      simp

/-- C53: reading the text gives back exactly the keys and values, in order, whatever characters they
contain. -/
theorem hstore_round_trip (tags : TagList) :
    hstoreParse (hstoreOp.all tags) = some (tags.map fun t => (t.key.toList, t.value.toList)) := by
  rw [hstore_all]
  have gen : ∀ (ts : TagList) (t : Tag) (n : Nat), ts.length < n →
      hstorePairs n (((t :: ts).map hstoreTag).intersperse [',']).flatten =
        some ((t :: ts).map fun t => (t.key.toList, t.value.toList)) := by
    intro ts
    induction ts with
    | nil =>
      intro t n hn
      obtain ⟨m, rfl⟩ : ∃ m, n = m + 1 := ⟨n - 1, by simp at hn; omega⟩
      have := hstorePair_tag t []
      simp only [List.append_nil] at this
      simp [hstorePairs, this]
    | cons u us ih =>
      intro t n hn
      obtain ⟨m, rfl⟩ : ∃ m, n = m + 1 := ⟨n - 1, by simp at hn; omega⟩
      have e : (((t :: u :: us).map hstoreTag).intersperse [',']).flatten =
          hstoreTag t ++ ',' :: (((u :: us).map hstoreTag).intersperse [',']).flatten := by
        rw [List.map_cons, List.map_cons, List.intersperse_cons₂]
        simp
      rw [e]
      simp only [hstorePairs, hstorePair_tag]
      rw [ih u m (by simp at hn ⊢; omega)]
      rfl
  cases tags with
  | nil => rfl
  | cons t ts =>
    unfold hstoreParse
    have hlen : ts.length < (((t :: ts).map hstoreTag).intersperse [',']).flatten.length := by
      clear gen
      induction ts generalizing t with
      | nil => simp [hstoreTag]
      | cons u us ih =>
        have := ih u
        rw [List.map_cons, List.map_cons, List.intersperse_cons₂]
        simp only [List.flatten_cons, List.length_append, List.map_cons] at this ⊢
        simp only [List.length_cons, List.length_nil]
        omega
    rw [if_neg, gen ts t _ hlen]
    intro e
    rw [e] at hlen
    simp at hlen

/-- Different tag lists have different texts. -/
theorem hstore_injective (a b : TagList) (h : hstoreOp.all a = hstoreOp.all b) : a = b := by
  have h1 := hstore_round_trip a
  rw [h, hstore_round_trip b] at h1
  simp only [Option.some.injEq] at h1
  have inj : Function.Injective (fun t : Tag => (t.key.toList, t.value.toList)) := by
    rintro ⟨k, v⟩ ⟨k', v'⟩ e
    simp only [Prod.mk.injEq, String.toList_inj] at e
    rw [e.1, e.2]
  exact ((List.map_inj_right (fun x y e => inj e)).1 h1).symm

example : hstoreOp.all [⟨"name", "a\"b"⟩, ⟨"", "c\\"⟩] = "\"name\"=>\"a\\\"b\",\"\"=>\"c\\\\\"".toList := by
  decide +kernel

/-- The other form: `key=value`, joined. -/
theorem key_equals_value_text (join : List Char) (tags : TagList) :
    (keyEqualsValueOp join).all tags =
      ((tags.map fun t => t.key.toList ++ '=' :: t.value.toList).intersperse join).flatten := by
  have app : ∀ (out : List Char) (t : Tag), (keyEqualsValueOp join).apply out t =
      (if out ≠ [] then out ++ join else []) ++ (t.key.toList ++ '=' :: t.value.toList) := by
    intro out t
    unfold TagToString.apply keyEqualsValueOp
    simp only [appendEscaped_eq]
    by_cases h : out = [] <;> simp [h]
  have gen : ∀ (tags : TagList) (out : List Char), out ≠ [] →
      tags.foldl (keyEqualsValueOp join).apply out =
        out ++ (tags.map fun t => join ++ (t.key.toList ++ '=' :: t.value.toList)).flatten := by
    intro tags
    induction tags with
    | nil => intro out _; simp
    | cons t ts ih =>
      intro out h
      rw [List.foldl_cons, ih _ (by rw [app]; simp), app, if_pos h]
      simp
  cases tags with
  | nil => rfl
  | cons t ts =>
    unfold TagToString.all
    rw [List.foldl_cons, gen _ _ (by rw [app]; simp), app]
    simp only [ne_eq, not_true_eq_false, if_false, List.nil_append, List.map_cons]
    clear gen
    induction ts generalizing t with
    | nil => simp
    | cons u us ih =>
      rw [List.map_cons, List.flatten_cons, List.map_cons, List.intersperse_cons₂]
      simp only [List.flatten_cons]
      rw [← ih u]
      simp

end Osmium
