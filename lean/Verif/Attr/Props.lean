import Verif.Attr.Model
import Verif.Time.Props
import Verif.Time.ParseProps
/-
Property C08: attribute setters.
-/
namespace Osmium

/-- The observable attributes of an object. -/
inductive Attribute
  | id | version | changeset | timestamp | endtime | uid | user | visible | tags
deriving DecidableEq, Repr

/-- The name under which `set_attribute` knows an attribute (`endtime` and `tags` have none). -/
def Attribute.name : Attribute → Option String
  | .id => some "id" | .version => some "version" | .changeset => some "changeset"
  | .timestamp => some "timestamp" | .uid => some "uid" | .user => some "user"
  | .visible => some "visible" | .endtime => none | .tags => none

/-- `a` has the same value in both objects. -/
def Attribute.same (a : Attribute) (o o' : Obj) : Prop :=
  match a with
  | .id => o.id = o'.id | .version => o.version = o'.version
  | .changeset => o.changeset = o'.changeset | .timestamp => o.timestamp = o'.timestamp
  | .endtime => o.endtime = o'.endtime | .uid => o.uid = o'.uid | .user => o.user = o'.user
  | .visible => o.visible = o'.visible | .tags => o.tags = o'.tags

theorem obj_ext_iff (o o' : Obj) : o = o' ↔ ∀ a : Attribute, a.same o o' := by
  constructor
  · rintro rfl a; cases a <;> rfl
  · intro h
    have h1 := h .id; have h2 := h .version; have h3 := h .changeset; have h4 := h .timestamp
    have h5 := h .endtime; have h6 := h .uid; have h7 := h .user; have h8 := h .visible
    have h9 := h .tags
    cases o; cases o'
    simp only [Attribute.same] at *
    simp [*]

/-- **C08** (frame): `set_attribute(name, value)` changes no attribute other than the one named;
in particular an unknown name changes nothing. -/
theorem set_attribute_frame (o : Obj) (name value : String) (a : Attribute)
    (h : a.name ≠ some name) : a.same o (o.setAttribute name value).1 := by
  unfold Obj.setAttribute Obj.setTimestampText Obj.setUser Obj.setVisibleText
  cases a <;> simp only [Attribute.name, ne_eq, Option.some.injEq, reduceCtorEq,
    not_false_eq_true, Attribute.same] at h ⊢
  all_goals
    have h' : ∀ s : String, (name == s) = decide (s = name) := by
      intro s; by_cases e : s = name
      · simp [e]
      · simp [e]; exact fun e' => e e'.symm
    simp only [h', h, decide_false]
    grind

/-- **C08** (unknown names): nothing is changed and nothing thrown. -/
theorem set_attribute_unknown (o : Obj) (name value : String)
    (h : ∀ a : Attribute, a.name ≠ some name) : o.setAttribute name value = (o, none) := by
  have h1 := h .id; have h2 := h .version; have h3 := h .changeset; have h4 := h .timestamp
  have h5 := h .uid; have h6 := h .user; have h7 := h .visible
  simp only [Attribute.name, ne_eq, Option.some.injEq] at h1 h2 h3 h4 h5 h6 h7
  have h' : ∀ s : String, (name == s) = decide (s = name) := by
    intro s; by_cases e : s = name
    · simp [e]
    · simp [e]; exact fun e' => e e'.symm
  simp [Obj.setAttribute, h', h1, h2, h3, h4, h5, h6, h7]

/-- **C08** (numbers): setting a numeric attribute to the decimal text of a value in range sets
it to that value. -/
theorem set_attribute_numbers (o : Obj) (n : Int) :
    (InS64 n → (o.setAttribute "id" (String.ofList (Text.intDec n))) = ({ o with id := n }, none)) ∧
    (InU32 n → (o.setAttribute "version" (String.ofList (Text.intDec n))) = ({ o with version := n }, none)) ∧
    (InS32 n → (o.setAttribute "changeset" (String.ofList (Text.intDec n))) = ({ o with changeset := n }, none)) ∧
    (InS32 n → (o.setAttribute "uid" (String.ofList (Text.intDec n))) = ({ o with uid := n }, none)) := by
  refine ⟨fun h => ?_, fun h => ?_, fun h => ?_, fun h => ?_⟩
  · simp [Obj.setAttribute, strToId, Text.atoll_intDec n h]
  · have : InS64 n := by unfold InU32 at h; unfold InS64; omega
    simp [Obj.setAttribute, strToVersion, Text.atoll_intDec n this, wrapU32_of_in h]
  · have : InS64 n := by unfold InS32 at h; unfold InS64; omega
    simp [Obj.setAttribute, strToChangeset, Text.atoll_intDec n this, wrapS32_of_in h]
  · have : InS64 n := by unfold InS32 at h; unfold InS64; omega
    simp [Obj.setAttribute, strToUid, Text.atoll_intDec n this, wrapS32_of_in h]

/-- **C08** (timestamps): a timestamp text of a non-zero timestamp of the years 0 to 9999 sets the
timestamp to it. -/
theorem set_attribute_timestamp (o : Obj) (t : Int) (h0 : t ≠ 0) (h : InIsoRange t) :
    o.setAttribute "timestamp" (String.ofList (Time.toIso t)) = ({ o with timestamp := t }, none) := by
  simp [Obj.setAttribute, Obj.setTimestampText, iso_roundtrip t h0 h]

/-- **C08** (text attributes): user names of up to 1021 bytes are stored as they are, the visible
flag becomes false exactly for the text "false". -/
theorem set_attribute_text (o : Obj) (s : String) :
    (s.utf8ByteSize ≤ 1021 → o.setAttribute "user" s = ({ o with user := s }, none)) ∧
    (o.setAttribute "visible" s = ({ o with visible := decide (s ≠ "false") }, none)) := by
  constructor
  · intro h
    have : ¬ s.utf8ByteSize > maxLength := by unfold maxLength; omega
    simp [Obj.setAttribute, Obj.setUser, this]
  · by_cases h : s = "false" <;> simp [Obj.setAttribute, Obj.setVisibleText, h]

/-- **C08** (exceptions): an exception is thrown exactly for a user name of more than 1021 bytes
and for a timestamp that cannot be parsed. -/
theorem set_attribute_throws_iff (o : Obj) (name value : String) :
    (o.setAttribute name value).2 ≠ none ↔
      (name = "user" ∧ 1021 < value.utf8ByteSize) ∨
      (name = "timestamp" ∧ Time.parseIso value.toList = none) := by
  unfold Obj.setAttribute
  by_cases h1 : name = "id"
  · subst h1; simp
  by_cases h2 : name = "version"
  · subst h2; simp
  by_cases h3 : name = "changeset"
  · subst h3; simp
  by_cases h4 : name = "timestamp"
  · subst h4
    simp [Obj.setTimestampText]; cases Time.parseIso value.toList <;> simp
  by_cases h5 : name = "uid"
  · subst h5; simp
  by_cases h6 : name = "user"
  · subst h6
    simp [Obj.setUser, maxLength]
    split <;> simp_all
  by_cases h7 : name = "visible"
  · subst h7; simp
  simp [h1, h2, h3, h4, h5, h6, h7]

/-- **C08** (exceptions leave the object unchanged). -/
theorem set_attribute_throws_unchanged (o : Obj) (name value : String)
    (h : (o.setAttribute name value).2 ≠ none) : (o.setAttribute name value).1 = o := by
  rcases (set_attribute_throws_iff o name value).1 h with ⟨rfl, h'⟩ | ⟨rfl, h'⟩
  · have : value.utf8ByteSize > maxLength := by unfold maxLength; omega
    simp [Obj.setAttribute, Obj.setUser, this]
  · simp [Obj.setAttribute, Obj.setTimestampText, h']

/-- C08: what the documentation of `user()` promises ("When the exception is thrown the username
is set to \"\"", osm/object.hpp:185) is false of the code: a previous user name stays. -/
theorem set_user_not_cleared (o : Obj) (value : String) (h : 1021 < value.utf8ByteSize)
    (hu : o.user ≠ "") :
    (o.setAttribute "user" value).2 = some .userTooLong ∧ (o.setAttribute "user" value).1.user ≠ "" := by
  have : value.utf8ByteSize > maxLength := by unfold maxLength; omega
  simp [Obj.setAttribute, Obj.setUser, this, hu]

theorem monthStart_bounds (y m : Int) : 0 ≤ Time.monthStart y m ∧ Time.monthStart y m ≤ 335 := by
  have : Time.leapDay y = 0 ∨ Time.leapDay y = 1 := by
    unfold Time.leapDay
    cases Time.isLeap y
    · exact .inl rfl
    · exact .inr rfl
  unfold Time.monthStart
  repeat' split
  all_goals omega

theorem timegm_in (tm : Time.Tm) (hy : 0 ≤ tm.year ∧ tm.year ≤ 9999) (hd : 1 ≤ tm.mday ∧ tm.mday ≤ 31)
    (hh : 0 ≤ tm.hour ∧ tm.hour ≤ 23) (hm : 0 ≤ tm.min ∧ tm.min ≤ 59) (hs : 0 ≤ tm.sec ∧ tm.sec ≤ 61) :
    InS64 (Time.timegm tm) := by
  have := monthStart_bounds tm.year tm.mon
  unfold Time.timegm Time.daysTo InS64
  omega

/-- The times of accepted texts are times of the years 0 to 9999 or shortly after. -/
theorem parseIso_in (s : List Char) (t : Int) (h : Time.parseIso s = some t) : InS64 t := by
  open Time in
  unfold parseIso at h
  obtain ⟨⟨y, s1⟩, e1, h⟩ := option_bind_some h
  obtain ⟨s2, e2, h⟩ := option_bind_some h
  obtain ⟨⟨mo, s3⟩, e3, h⟩ := option_bind_some h
  obtain ⟨s4, e4, h⟩ := option_bind_some h
  obtain ⟨⟨d, s5⟩, e5, h⟩ := option_bind_some h
  obtain ⟨s6, e6, h⟩ := option_bind_some h
  obtain ⟨⟨hh, s7⟩, e7, h⟩ := option_bind_some h
  obtain ⟨s8, e8, h⟩ := option_bind_some h
  obtain ⟨⟨mi, s9⟩, e9, h⟩ := option_bind_some h
  obtain ⟨s10, e10, h⟩ := option_bind_some h
  obtain ⟨⟨sec, s11⟩, e11, h⟩ := option_bind_some h
  obtain ⟨s12, e12, hfin⟩ := option_bind_some h
  obtain ⟨_, y, rfl, rfl, _, _, _, _, _, _, _, _, y1, y2⟩ := getNumber_field (by omega) e1
  obtain ⟨_, m, rfl, _, _, _, _, _, _, _, _, _, m1, m2⟩ := getNumber_field (by omega) e3
  obtain ⟨_, d, rfl, _, _, _, _, _, _, _, _, _, d1, d2⟩ := getNumber_field (by omega) e5
  obtain ⟨_, hh, rfl, _, _, _, _, _, _, _, _, _, h1, h2⟩ := getNumber_field (by omega) e7
  obtain ⟨_, mi, rfl, _, _, _, _, _, _, _, _, _, i1, i2⟩ := getNumber_field (by omega) e9
  obtain ⟨_, sec, rfl, _, _, _, _, _, _, _, _, _, c1, c2⟩ := getNumber_field (by omega) e11
  clear e1 e3 e5 e7 e9 e11 e2 e4 e6 e8 e10 e12
  have hf : t = timegm { year := y, mon := m, mday := d, hour := hh, min := mi, sec := sec } :=
    (Option.some.inj hfin).symm
  rw [hf]
  exact timegm_in _ ⟨by simp only; omega, by simp only; omega⟩ ⟨by simp only; omega, by simp only; omega⟩
    ⟨by simp only; omega, by simp only; omega⟩ ⟨by simp only; omega, by simp only; omega⟩
    ⟨by simp only; omega, by simp only; omega⟩

/-- **C08**: set values stay in the ranges of the C++ types. -/
theorem set_attribute_wf (o : Obj) (name value : String) (h : o.WF) : (o.setAttribute name value).1.WF := by
  have ht := parseIso_in value.toList
  have ha := Text.atoll_in value.toList
  obtain ⟨h1, h2, h3, h4, h5⟩ := h
  unfold Obj.setAttribute Obj.setTimestampText Obj.setUser Obj.setVisibleText
  split
  · exact ⟨ha, h2, h3, h4, h5⟩
  split
  · exact ⟨h1, wrapU32_in _, h3, h4, h5⟩
  split
  · exact ⟨h1, h2, wrapS32_in _, h4, h5⟩
  split
  · cases e : Time.parseIso value.toList with
    | none => exact ⟨h1, h2, h3, h4, h5⟩
    | some t => exact ⟨h1, h2, h3, ht t e, h5⟩
  split
  · exact ⟨h1, h2, h3, h4, wrapS32_in _⟩
  split
  · split
    · exact ⟨h1, h2, h3, h4, h5⟩
    · exact ⟨h1, h2, h3, h4, h5⟩
  split
  · split
    · exact ⟨h1, h2, h3, h4, h5⟩
    · exact ⟨h1, h2, h3, h4, h5⟩
  · exact ⟨h1, h2, h3, h4, h5⟩

/-- **C08** (anonymous users): the user of an object is anonymous if no `uid` is set, and otherwise if the last
one set is -1. -/
theorem user_anonymous (before after : List (String × String)) (n : Int) (hn : InS32 n)
    (h : ∀ a ∈ after, a.1 ≠ "uid") :
    let set : Obj → String × String → Obj := fun o a => (o.setAttribute a.1 a.2).1
    (after.foldl set Obj.new).userIsAnonymous = true ∧
    (((before ++ ("uid", String.ofList (Text.intDec n)) :: after).foldl set Obj.new).userIsAnonymous = true
      ↔ n = -1) := by
  intro set
  have key : ∀ o : Obj, (after.foldl set o).uid = o.uid := by
    induction after with
    | nil => intro o; rfl
    | cons a as ih =>
      intro o
      rw [List.foldl_cons, ih (fun b hb => h b (List.mem_cons_of_mem _ hb))]
      refine (set_attribute_frame o a.1 a.2 .uid ?_).symm
      intro e
      exact h a List.mem_cons_self (Option.some.inj e).symm
  constructor
  · unfold Obj.userIsAnonymous
    rw [key]
    rfl
  · unfold Obj.userIsAnonymous
    rw [List.foldl_append, List.foldl_cons, key]
    have e : ∀ o : Obj, (set o ("uid", String.ofList (Text.intDec n))).uid = n := by
      intro o
      show (o.setAttribute "uid" _).1.uid = n
      rw [(set_attribute_numbers o n).2.2.2 hn]
    rw [e, beq_iff_eq]

example : InS32 7 ∧ ∀ a ∈ [("user", "joto"), ("id", "3")], a.1 ≠ "uid" := by
  refine ⟨by unfold InS32; omega, by decide⟩
example : (Obj.new.setAttribute "uid" "-17").1 = { Obj.new with uid := -17 } ∧
    (Obj.new.setAttribute "version" "12").1 = { Obj.new with version := 12 } ∧
    (∀ a : Attribute, a.name ≠ some "foo") := by
  refine ⟨by decide +kernel, by decide +kernel, fun a => by cases a <;> decide⟩
example : ∃ (o : Obj) (s : String), 1021 < s.utf8ByteSize ∧ o.user ≠ "" :=
  ⟨{ Obj.new with user := "joto" }, String.ofList (List.replicate 1022 'a'), by decide +kernel, by decide⟩

end Osmium
