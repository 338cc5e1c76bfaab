import Verif.Xml.MeaningSpec
import Verif.Xml.DocProps
import Verif.Time.Props
/-
C74: any OSM XML document is read as the format says.
-/
namespace Osmium
open Spec Text

/-! ### Values -/

theorem toNat_zero_char : ('0' : Char).toNat = 48 := rfl

theorem strtoZ_digits (ds : List Char) (hne : ds ≠ []) (hd : ∀ c ∈ ds, isDigit c = true) :
    strtoZ ds = digitsVal 0 ds ∧ strtoZ ('+' :: ds) = digitsVal 0 ds ∧ strtoZ ('-' :: ds) = -(digitsVal 0 ds : Int) := by
  refine ⟨?_, ?_, ?_⟩
  · cases ds with
    | nil => exact absurd rfl hne
    | cons c cs =>
      have hc := hd c (by simp)
      unfold strtoZ
      rw [skipSpace_digit hc]
      have h1 : c ≠ '-' := by rintro rfl; revert hc; decide
      have h2 : c ≠ '+' := by rintro rfl; revert hc; decide
      split
      · rename_i e; simp at e; exact absurd e.1 h1
      · rename_i e; simp at e; exact absurd e.1 h2
      · rfl
  · unfold strtoZ
    rw [show skipSpace ('+' :: ds) = '+' :: ds by simp [skipSpace, show isSpace '+' = false by decide]]
    rfl
  · unfold strtoZ
    rw [show skipSpace ('-' :: ds) = '-' :: ds by simp [skipSpace, show isSpace '-' = false by decide]]
    rfl

theorem integerText_atoll {s : String} {n : Int} (h : IntegerText s n) (hn : InS64 n) : atoll s.toList = n := by
  obtain ⟨ds, hne, hd, h⟩ := h
  have hd' : ∀ c ∈ ds, isDigit c = true := fun c hc => (Time.digit_iff c).mp (hd c hc)
  obtain ⟨e1, e2, e3⟩ := strtoZ_digits ds hne hd'
  have hv : strtoZ s.toList = n := by
    rcases h with ⟨h | h, rfl⟩ | ⟨h, rfl⟩
    · rw [h, e1, Time.decimal_eq ds hd']
    · rw [h, e2, Time.decimal_eq ds hd']
    · rw [h, e3, Time.decimal_eq ds hd']
  unfold atoll
  rw [hv]
  unfold InS64 at hn
  dsimp only
  split
  · omega
  · split <;> omega

theorem expPart_text {ex : List Char} {e : Int} (h : ExponentText ex e) :
    expPart ex = e ∧ ∀ c ∈ ex.head?, isDigit c = false ∧ c ≠ '.' := by
  rcases h with ⟨rfl, rfl⟩ | ⟨c, sign, ds, hc, hs, hne, hd, rfl, rfl⟩
  · exact ⟨rfl, by intro c hc; simp at hc⟩
  · have hd' : ∀ c ∈ ds, isDigit c = true := fun c hc => (Time.digit_iff c).mp (hd c hc)
    have hcc : c = 'e' ∨ c = 'E' := hc
    constructor
    · rw [Time.decimal_eq ds hd']
      unfold expPart
      rcases hs with rfl | rfl | rfl
      · cases ds with
        | nil => exact absurd rfl hne
        | cons d ds =>
          have h1 : d ≠ '-' := by rintro rfl; exact absurd (hd' '-' List.mem_cons_self) (by decide)
          have h2 : d ≠ '+' := by rintro rfl; exact absurd (hd' '+' List.mem_cons_self) (by decide)
          dsimp only [List.nil_append]
          rw [if_pos hcc]
          split
          · rename_i e; exact absurd (List.cons.inj e).1 h1
          · rename_i e; exact absurd (List.cons.inj e).1 h2
          · simp
      · dsimp only [List.cons_append, List.nil_append]
        rw [if_pos hcc]
        simp
      · dsimp only [List.cons_append, List.nil_append]
        rw [if_pos hcc]
        simp
    · intro x hx
      simp at hx
      subst hx
      rcases hcc with rfl | rfl <;> decide

theorem decimalVal_digits (a b ex : List Char) (e : Int) (hne : a ++ b ≠ []) (hd : ∀ c ∈ a ++ b, isDigit c = true)
    (hex : ExponentText ex e) :
    decimalVal (a ++ '.' :: b ++ ex) = (digitsVal 0 (a ++ b) : ℚ) / 10 ^ b.length * (10 : ℚ) ^ e ∧
    (b = [] → decimalVal (a ++ ex) = (digitsVal 0 (a ++ b) : ℚ) / 10 ^ b.length * (10 : ℚ) ^ e) := by
  have ha : ∀ c ∈ a, isDigit c = true := fun c hc => hd c (by simp [hc])
  have hb : ∀ c ∈ b, isDigit c = true := fun c hc => hd c (by simp [hc])
  have hne' : ¬ (a = [] ∧ b = []) := by rintro ⟨rfl, rfl⟩; exact hne rfl
  obtain ⟨he, hh⟩ := expPart_text hex
  have sb : spanDigits (b ++ ex) = (b, ex) := spanDigits_append b ex hb fun c hc => (hh c hc).1
  have sa : spanDigits (a ++ ex) = (a, ex) := spanDigits_append a ex ha fun c hc => (hh c hc).1
  have key : ∀ n : ℕ, (10 : ℚ) ^ (e - n) = (10 : ℚ) ^ e / 10 ^ n := fun n => by
    rw [zpow_sub₀ (by norm_num), zpow_natCast]
  constructor
  · have h1 : spanDigits (a ++ '.' :: b ++ ex) = (a, '.' :: b ++ ex) := by
      rw [List.append_assoc]
      exact spanDigits_append _ _ ha (by intro c hc; simp at hc; subst hc; decide)
    unfold decimalVal
    simp only [h1, List.cons_append, sb, hne', if_false, he]
    rw [key]
    ring
  · rintro rfl
    have hna : a ≠ [] := fun h => hne (by simp [h])
    unfold decimalVal
    rcases ex with _ | ⟨c, cs⟩
    · simp only [sa, hne', and_true, hna, if_false, he]
      simp
    · have hc := (hh c rfl).2
      simp only [sa]
      split
      · rename_i h; exact absurd (List.cons.inj h).1 hc
      · simp_all

theorem isNonFinite_dot {cs : List Char} : isNonFinite ('.' :: cs) = false := by
  have : ('.' : Char).toLower ≠ 'i' ∧ ('.' : Char).toLower ≠ 'n' := by decide
  simp [isNonFinite, this.1, this.2]

theorem strtodVal_signed (sign t : List Char) (hs : sign = [] ∨ sign = ['+'] ∨ sign = ['-'])
    (ht : ∃ c cs, t = c :: cs ∧ (isDigit c = true ∨ c = '.')) :
    strtodVal (sign ++ t) = some ((if sign = ['-'] then -1 else 1) * decimalVal t) := by
  obtain ⟨c, cs, rfl, hc⟩ := ht
  have hnf : isNonFinite (c :: cs) = false := by
    rcases hc with hc | rfl
    · exact isNonFinite_digit hc
    · exact isNonFinite_dot
  have hsp : isSpace c = false := by
    rcases hc with hc | rfl
    · exact isSpace_of_isDigit hc
    · decide
  have h1 : c ≠ '-' := by rintro rfl; revert hc; decide
  have h2 : c ≠ '+' := by rintro rfl; revert hc; decide
  rcases hs with rfl | rfl | rfl
  · unfold strtodVal
    rw [List.nil_append, show skipSpace (c :: cs) = c :: cs by simp [skipSpace, hsp]]
    split
    · rename_i e; simp at e; exact absurd e.1 h1
    · rename_i e; simp at e; exact absurd e.1 h2
    · rw [hnf]; simp
  · unfold strtodVal
    rw [List.singleton_append, show skipSpace ('+' :: c :: cs) = '+' :: c :: cs by
      simp [skipSpace, show isSpace '+' = false by decide]]
    simp [hnf]
  · unfold strtodVal
    rw [List.singleton_append, show skipSpace ('-' :: c :: cs) = '-' :: c :: cs by
      simp [skipSpace, show isSpace '-' = false by decide]]
    simp [hnf]

theorem degreesText_val {s : String} {v : ℚ} (h : DegreesText s v) : strtodVal s.toList = some v := by
  obtain ⟨sign, a, b, ex, e, hs, hne, hd, hex, ht, rfl⟩ := h
  have hd' : ∀ c ∈ a ++ b, isDigit c = true := fun c hc => (Time.digit_iff c).mp (hd c hc)
  obtain ⟨e1, e2⟩ := decimalVal_digits a b ex e hne hd' hex
  rw [Time.decimal_eq _ hd']
  rcases ht with ht | ⟨rfl, ht⟩
  · have ht : s.toList = sign ++ (a ++ '.' :: b ++ ex) := by rw [ht]; simp only [List.append_assoc]
    rw [ht, strtodVal_signed sign _ hs ?_, e1]
    cases a with
    | nil => exact ⟨_, _, rfl, Or.inr rfl⟩
    | cons c cs => exact ⟨c, _, rfl, Or.inl (hd' c (by simp))⟩
  · rw [ht, List.append_assoc, strtodVal_signed sign _ hs ?_, e2 rfl]
    cases a with
    | nil => exact absurd rfl hne
    | cons c cs => exact ⟨c, _, rfl, Or.inl (hd' c (by simp))⟩

theorem near_fix {v : ℚ} {x : ℤ} (hv : |v * 10000000 - x| ≤ 1 / 2 - 1 / 1000000) (h : InS32 x) : doubleToFix (fl v) = x := by
  unfold doubleToFix
  obtain ⟨d1, h1, e1⟩ := fl_eq v
  obtain ⟨d2, h2, e2⟩ := fl_eq (fl v * coordinatePrecision)
  apply cround_near
  rw [e2, e1]
  have hx := abs_le_of_s32 h
  have e : v * (1 + d1) * coordinatePrecision * (1 + d2) = v * 10000000 * ((1 + d1) * (1 + d2)) := by
    unfold coordinatePrecision; ring
  rw [e]
  have he := err2 h1 h2
  generalize (1 + d1) * (1 + d2) = f at he
  generalize v * 10000000 = w at hv
  have hw : |w| ≤ 2147483649 := by
    rw [abs_le] at *
    constructor <;> linarith
  have h3 : w * f - x = (w - x) + w * (f - 1) := by ring
  rw [h3]
  have h4 : |w * (f - 1)| ≤ 2147483649 * (3 * ulp) := by
    rw [abs_mul]
    exact mul_le_mul hw he (abs_nonneg _) (by norm_num)
  have h5 : (2147483649 : ℚ) * (3 * ulp) < 1 / 1000000 := by unfold ulp; norm_num
  calc |w - x + w * (f - 1)| ≤ |w - x| + |w * (f - 1)| := abs_add_le _ _
    _ < (1 / 2 - 1 / 1000000) + 1 / 1000000 := by linarith
    _ = 1 / 2 := by norm_num

theorem coordinateText_fix {s : String} {x : Int} (h : CoordinateText s x) (hx : InS32 x) :
    textToFix s = some x := by
  obtain ⟨v, hv, hn⟩ := h
  unfold textToFix atof
  rw [degreesText_val hv]
  simp only [Option.map_some, doubleToFixChk, near_fix hn hx, hx, if_true]

theorem timeText_parse {s : String} {t : Int} (h : TimeText s t) : Time.parseIso s.toList = some t := by
  obtain ⟨cal, hc⟩ := calendar_exists
  exact (parse_iso_iff cal hc _ _).mpr (h cal hc)

/-! ### Attributes -/

theorem lookup_none_of_not_mem {as : XAttrs} {k : String} (h : k ∉ as.map Prod.fst) : as.lookup k = none := by
  induction as with
  | nil => rfl
  | cons a as ih =>
    obtain ⟨k', v⟩ := a
    simp only [List.map_cons, List.mem_cons, not_or] at h
    rw [List.lookup_cons, show (k == k') = false by simpa using h.1]
    exact ih h.2

theorem lastAttr_eq {as : XAttrs} (hu : UniqueNames as) (k d : String) : lastAttr k d as = (attrOf as k).getD d := by
  induction as generalizing d with
  | nil => rfl
  | cons a as ih =>
    obtain ⟨k', v⟩ := a
    have hu' : UniqueNames as := (List.nodup_cons.mp hu).2
    unfold lastAttr
    rw [ih hu']
    unfold attrOf
    rw [List.lookup_cons]
    by_cases hk : k' = k
    · subst hk
      have : as.lookup k' = none := lookup_none_of_not_mem (List.nodup_cons.mp hu).1
      simp [this]
    · have : (k == k') = false := by simpa using fun h => hk h.symm
      simp [hk, this]

/-- The effect of one attribute. (helper for statements and proofs, no counterpart in /repo) -/
def attrStep (o : OsmObj) (kv : String × String) : OsmObj :=
  if kv.1 = "lon" then
    match o with
    | .node n => .node { n with position := { n.position with x := (textToFix kv.2).getD 0 } }
    | o => o
  else if kv.1 = "lat" then
    match o with
    | .node n => .node { n with position := { n.position with y := (textToFix kv.2).getD 0 } }
    | o => o
  else o.mapObj fun p => (p.setAttribute kv.1 kv.2).1

/-- The reader accepts this attribute. (helper for statements and proofs, no counterpart in /repo) -/
def AttrFine (kv : String × String) : Prop :=
  if kv.1 = "lon" ∨ kv.1 = "lat" then (textToFix kv.2).isSome else (Obj.new.setAttribute kv.1 kv.2).2 = none

theorem attrsTo_fold {t : ObjType} (ht : t.IsObj) (hn : Bool) (hh : t = .node → hn = true) (as : XAttrs)
    (h : ∀ kv ∈ as, AttrFine kv) : AttrsTo t hn as (fun o => as.foldl attrStep o) := by
  induction as with
  | nil => exact AttrsTo.nil t hn
  | cons a as ih =>
    obtain ⟨k, v⟩ := a
    refine AttrsTo.append (a := [(k, v)]) (g := fun o => attrStep o (k, v)) ?_ (ih fun kv hkv => h kv (by simp [hkv]))
    have hf := h (k, v) (by simp)
    unfold AttrFine at hf
    unfold attrStep
    dsimp only at hf ⊢
    by_cases h1 : k = "lon"
    · subst h1
      simp only [true_or, if_true] at hf ⊢
      obtain ⟨x, hx⟩ := Option.isSome_iff_exists.mp hf
      cases hn with
      | false =>
        refine ⟨[], by simp [initAttrs], ?_⟩
        intro r
        rcases ht with rfl | rfl | rfl
        · exact absurd (hh rfl) (by simp)
        · exact ⟨rfl, rfl⟩
        · exact ⟨rfl, rfl⟩
      | true =>
        refine ⟨[.modNode fun n => { n with position := { n.position with x := x } }], by simp [initAttrs, hx], ?_⟩
        intro r
        rcases ht with rfl | rfl | rfl <;> simp [Regs.run, Regs.step, Regs.get, hx]
    by_cases h2 : k = "lat"
    · subst h2
      simp only [or_true, if_true, h1, if_false] at hf ⊢
      obtain ⟨x, hx⟩ := Option.isSome_iff_exists.mp hf
      cases hn with
      | false =>
        refine ⟨[], by simp [initAttrs], ?_⟩
        intro r
        rcases ht with rfl | rfl | rfl
        · exact absurd (hh rfl) (by simp)
        · exact ⟨rfl, rfl⟩
        · exact ⟨rfl, rfl⟩
      | true =>
        refine ⟨[.modNode fun n => { n with position := { n.position with y := x } }], by simp [initAttrs, hx], ?_⟩
        intro r
        rcases ht with rfl | rfl | rfl <;> simp [Regs.run, Regs.step, Regs.get, hx]
    simp only [h1, h2, or_self, if_false] at hf ⊢
    refine ⟨ROp.modObj t fun p => (p.setAttribute k v).1, ?_, OpsTo.modObj ht _⟩
    have hf' : (Obj.new.setAttribute k v).2 = none := by simpa using hf
    simp only [initAttrs, h1, h2, if_false, hf', List.append_nil]

/-- A part of the object that only the attribute `k0` changes. -/
theorem fold_field {β : Type} (p : OsmObj → β) (k0 : String) (val : String → β) (Q : OsmObj → Prop)
    (hQ : ∀ o kv, Q o → Q (attrStep o kv))
    (hset : ∀ o v, Q o → AttrFine (k0, v) → p (attrStep o (k0, v)) = val v)
    (hkeep : ∀ o k v, k ≠ k0 → p (attrStep o (k, v)) = p o) :
    ∀ (as : XAttrs) (o : OsmObj), UniqueNames as → (∀ kv ∈ as, AttrFine kv) → Q o →
      p (as.foldl attrStep o) = match attrOf as k0 with | none => p o | some v => val v := by
  intro as
  induction as with
  | nil => intro o _ _ _; rfl
  | cons a as ih =>
    intro o hu hf hq
    obtain ⟨k, v⟩ := a
    have hu' : UniqueNames as := (List.nodup_cons.mp hu).2
    rw [List.foldl_cons, ih _ hu' (fun kv hkv => hf kv (by simp [hkv])) (hQ _ _ hq)]
    unfold attrOf
    rw [List.lookup_cons]
    by_cases hk : k = k0
    · subst hk
      have : as.lookup k = none := lookup_none_of_not_mem (List.nodup_cons.mp hu).1
      simp only [this, beq_self_eq_true, hset o v hq (hf (k, v) (by simp))]
    · have hb : (k0 == k) = false := by simpa using fun h => hk h.symm
      rw [hb, hkeep o k v hk]

theorem step_obj (o : OsmObj) (k v : String) (h1 : k ≠ "lon") (h2 : k ≠ "lat") :
    (attrStep o (k, v)).obj = (o.obj.setAttribute k v).1 := by
  simp only [attrStep, h1, h2, if_false]
  cases o <;> rfl

theorem step_obj_lonlat (o : OsmObj) (k v : String) (h : k = "lon" ∨ k = "lat") : (attrStep o (k, v)).obj = o.obj := by
  unfold attrStep
  rcases h with rfl | rfl
  · cases o <;> rfl
  · have : ("lat" : String) ≠ "lon" := by decide
    simp only [this, if_false, if_true]
    cases o <;> rfl

theorem fine_set {k v : String} (h1 : k ≠ "lon") (h2 : k ≠ "lat") (h : AttrFine (k, v)) (o : Obj) :
    (o.setAttribute k v).2 = none := by
  unfold AttrFine at h
  simp only [h1, h2, or_self, if_false] at h
  unfold Obj.setAttribute Obj.setTimestampText Obj.setUser at *
  grind

theorem field_keep {β : Type} (p : Obj → β) (k0 : String)
    (hp : ∀ o k v, k ≠ k0 → p (Obj.setAttribute o k v).1 = p o) (o : OsmObj) (k v : String) (hk : k ≠ k0) :
    p (attrStep o (k, v)).obj = p o.obj := by
  by_cases h : k = "lon" ∨ k = "lat"
  · rw [step_obj_lonlat o k v h]
  · rw [not_or] at h
    rw [step_obj o k v h.1 h.2, hp _ _ _ hk]

theorem attrOf_mem {as : XAttrs} (hu : UniqueNames as) {k v : String} (h : (k, v) ∈ as) : attrOf as k = some v := by
  induction as with
  | nil => cases h
  | cons a as ih =>
    obtain ⟨k', v'⟩ := a
    have hu' := List.nodup_cons.mp hu
    unfold attrOf
    rw [List.lookup_cons]
    rcases List.mem_cons.mp h with e | hm
    · cases e; simp
    · have hb : (k == k') = false := by
        simp only [beq_eq_false_iff_ne]
        rintro rfl
        exact hu'.1 (List.mem_map.mpr ⟨(k, v), hm, rfl⟩)
      rw [hb]
      exact ih hu'.2 hm

theorem fold_obj_field {β : Type} (p : Obj → β) (k0 : String) (val : String → β) (h1 : k0 ≠ "lon") (h2 : k0 ≠ "lat")
    (hset : ∀ (o : Obj) v, (o.setAttribute k0 v).2 = none → p (o.setAttribute k0 v).1 = val v)
    (hkeep : ∀ (o : Obj) k v, k ≠ k0 → p (o.setAttribute k v).1 = p o)
    (as : XAttrs) (o : OsmObj) (hu : UniqueNames as) (hf : ∀ kv ∈ as, AttrFine kv) :
    p (as.foldl attrStep o).obj = match attrOf as k0 with | none => p o.obj | some v => val v := by
  refine fold_field (fun o => p o.obj) k0 val (fun _ => True) (fun _ _ _ => trivial) ?_ ?_ as o hu hf trivial
  · intro o v _ hv
    rw [step_obj o k0 v h1 h2]
    exact hset _ _ (fine_set h1 h2 hv _)
  · intro o k v hk
    exact field_keep p k0 hkeep o k v hk

/-- All attributes of an object can be read. -/
theorem says_fine {as : XAttrs} {d : Bool} {o : Obj} (h : AttrsSay as d o) (hl : o.user.utf8ByteSize ≤ 1021)
    (hlon : ∀ s, attrOf as "lon" = some s → (textToFix s).isSome)
    (hlat : ∀ s, attrOf as "lat" = some s → (textToFix s).isSome) : ∀ kv ∈ as, AttrFine kv := by
  rintro ⟨k, v⟩ hm
  have ha := attrOf_mem h.unique hm
  unfold AttrFine
  dsimp only
  by_cases h1 : k = "lon"
  · subst h1; simpa using hlon v ha
  by_cases h2 : k = "lat"
  · subst h2; simpa using hlat v ha
  simp only [h1, h2, or_self, if_false, decide_eq_true_eq]
  by_cases h3 : k = "timestamp"
  · subst h3
    have := h.timestamp
    simp only [Says, ha] at this
    simp [Obj.setAttribute, Obj.setTimestampText, timeText_parse this]
  by_cases h4 : k = "user"
  · subst h4
    have := h.user
    simp only [Says, ha] at this
    subst this
    have : ¬ o.user.utf8ByteSize > maxLength := by unfold maxLength; omega
    simp [Obj.setAttribute, Obj.setUser, this]
  unfold Obj.setAttribute
  simp only [beq_iff_eq, h3, h4, if_false]
  split_ifs <;> rfl

theorem says_int {as : XAttrs} {k : String} {d v : Int} (h : Says as k IntegerText d v) (hv : InS64 v) :
    (match attrOf as k with | none => d | some s => atoll s.toList) = v := by
  unfold Says at h
  cases ha : attrOf as k with
  | none => rw [ha] at h; exact h.symm
  | some s => rw [ha] at h; exact integerText_atoll h hv

/-- The common attributes of an object after its start tag. -/
theorem says_obj {as : XAttrs} {d : Bool} {o : Obj} (h : AttrsSay as d o) (h1 : InS64 o.id) (h2 : InU32 o.version)
    (h3 : InS32 o.changeset) (h5 : InS32 o.uid) (hf : ∀ kv ∈ as, AttrFine kv) (x : OsmObj)
    (hx : x.obj = { Obj.new with visible := !d }) : (as.foldl attrStep x).obj = { o with tags := [] } := by
  have sid := fold_obj_field (fun o => o.id) "id" (fun v => atoll v.toList) (by decide) (by decide)
    (by intro o v _; simp [Obj.setAttribute, strToId])
    (by intro o k v hk; unfold Obj.setAttribute Obj.setTimestampText Obj.setUser Obj.setVisibleText; grind) as x h.unique hf
  have sver := fold_obj_field (fun o => o.version) "version" (fun v => wrapU32 (atoll v.toList)) (by decide) (by decide)
    (by intro o v _; simp [Obj.setAttribute, strToVersion])
    (by intro o k v hk; unfold Obj.setAttribute Obj.setTimestampText Obj.setUser Obj.setVisibleText; grind) as x h.unique hf
  have scs := fold_obj_field (fun o => o.changeset) "changeset" (fun v => wrapS32 (atoll v.toList)) (by decide) (by decide)
    (by intro o v _; simp [Obj.setAttribute, strToChangeset])
    (by intro o k v hk; unfold Obj.setAttribute Obj.setTimestampText Obj.setUser Obj.setVisibleText; grind) as x h.unique hf
  have suid := fold_obj_field (fun o => o.uid) "uid" (fun v => wrapS32 (atoll v.toList)) (by decide) (by decide)
    (by intro o v _; simp [Obj.setAttribute, strToUid])
    (by intro o k v hk; unfold Obj.setAttribute Obj.setTimestampText Obj.setUser Obj.setVisibleText; grind) as x h.unique hf
  have stime := fold_obj_field (fun o => o.timestamp) "timestamp" (fun v => (Time.parseIso v.toList).getD 0)
    (by decide) (by decide)
    (by intro o v hv; simp [Obj.setAttribute, Obj.setTimestampText] at hv ⊢; split at hv <;> simp_all)
    (by intro o k v hk; unfold Obj.setAttribute Obj.setTimestampText Obj.setUser Obj.setVisibleText; grind) as x h.unique hf
  have suser := fold_obj_field (fun o => o.user) "user" (fun v => v) (by decide) (by decide)
    (by intro o v hv; simp only [Obj.setAttribute, Obj.setUser] at hv ⊢; grind)
    (by intro o k v hk; unfold Obj.setAttribute Obj.setTimestampText Obj.setUser Obj.setVisibleText; grind) as x h.unique hf
  have svis := fold_obj_field (fun o => o.visible) "visible" (fun v => v != "false") (by decide) (by decide)
    (by intro o v hv; simp [Obj.setAttribute, Obj.setVisibleText]; split <;> simp_all)
    (by intro o k v hk; unfold Obj.setAttribute Obj.setTimestampText Obj.setUser Obj.setVisibleText; grind) as x h.unique hf
  have keep : ∀ {β : Type} (p : Obj → β) (hp : ∀ (o : Obj) k v, p (o.setAttribute k v).1 = p o),
      p (as.foldl attrStep x).obj = p x.obj := by
    intro β p hp
    clear sid sver scs suid stime suser svis hx hf h
    induction as generalizing x with
    | nil => rfl
    | cons a as ih =>
      rw [List.foldl_cons, ih]
      obtain ⟨k, v⟩ := a
      by_cases h : k = "lon" ∨ k = "lat"
      · rw [step_obj_lonlat x k v h]
      · rw [not_or] at h
        rw [step_obj x k v h.1 h.2, hp]
  have stags := keep (fun o => o.tags)
    (by intro o k v; unfold Obj.setAttribute Obj.setTimestampText Obj.setUser Obj.setVisibleText; grind)
  have send := keep (fun o => o.endtime)
    (by intro o k v; unfold Obj.setAttribute Obj.setTimestampText Obj.setUser Obj.setVisibleText; grind)
  generalize (as.foldl attrStep x).obj = y at *
  rw [hx] at sid sver scs suid stime suser svis stags send
  simp only [Obj.new] at sid sver scs suid stime suser svis stags send
  have e1 : y.id = o.id := by rw [sid]; exact says_int h.id h1
  have e2 : y.version = o.version := by
    rw [sver]
    have hv : wrapU32 o.version = o.version := by unfold InU32 at h2; unfold wrapU32; omega
    have := says_int h.version (by unfold InU32 at h2; unfold InS64; omega)
    cases ha : attrOf as "version" with
    | none => rw [ha] at this; exact this
    | some s => rw [ha] at this; simp only at this ⊢; rw [this, hv]
  have e3 : y.changeset = o.changeset := by
    rw [scs]
    have hv : wrapS32 o.changeset = o.changeset := by unfold InS32 at h3; unfold wrapS32; omega
    have := says_int h.changeset (by unfold InS32 at h3; unfold InS64; omega)
    cases ha : attrOf as "changeset" with
    | none => rw [ha] at this; exact this
    | some s => rw [ha] at this; simp only at this ⊢; rw [this, hv]
  have e4 : y.uid = o.uid := by
    rw [suid]
    have hv : wrapS32 o.uid = o.uid := by unfold InS32 at h5; unfold wrapS32; omega
    have := says_int h.uid (by unfold InS32 at h5; unfold InS64; omega)
    cases ha : attrOf as "uid" with
    | none => rw [ha] at this; exact this
    | some s => rw [ha] at this; simp only at this ⊢; rw [this, hv]
  have e5 : y.timestamp = o.timestamp := by
    rw [stime]
    have := h.timestamp
    unfold Says at this
    cases ha : attrOf as "timestamp" with
    | none => rw [ha] at this; exact this.symm
    | some s => rw [ha] at this; simp only at this ⊢; rw [timeText_parse this]; rfl
  have e6 : y.user = o.user := by
    rw [suser]
    have := h.user
    unfold Says at this
    cases ha : attrOf as "user" with
    | none => rw [ha] at this; exact this.symm
    | some s => rw [ha] at this; exact this
  have e7 : y.visible = o.visible := by
    rw [svis]
    have := h.visible
    unfold Says at this
    cases ha : attrOf as "visible" with
    | none => rw [ha] at this; exact this.symm
    | some s =>
      rw [ha] at this
      rcases this with ⟨rfl, hb⟩ | ⟨rfl, hb⟩ <;> rw [hb] <;> rfl
  have e8 := h.endtime
  cases y; cases o
  simp only at *
  subst e1 e2 e3 e4 e5 e6 e7 e8
  simp [stags, send]

/-! ### Children -/

/-- Add tags, way nodes and members. (helper for statements and proofs, no counterpart in /repo) -/
def addKids (ts : TagList) (ns : List Int) (ms : List Member) : OsmObj → OsmObj
  | .node n => .node { n with obj := { n.obj with tags := n.obj.tags ++ ts } }
  | .way w => .way ⟨{ w.obj with tags := w.obj.tags ++ ts }, w.nodes ++ ns.map fun r => { ref := r }⟩
  | .relation r => .relation ⟨{ r.obj with tags := r.obj.tags ++ ts }, r.members ++ ms⟩

theorem addKids_comp (ts ts' : TagList) (ns ns' : List Int) (ms ms' : List Member) :
    addKids ts' ns' ms' ∘ addKids ts ns ms = addKids (ts ++ ts') (ns ++ ns') (ms ++ ms') := by
  funext o; cases o <;> simp [addKids]

theorem kid_tag {t : ObjType} (ht : t.IsObj) {s : XCtl} (hc : s.ctx = ctxOf t) (hcur : s.cur = some t)
    (as : XAttrs) (hu : UniqueNames as) (x : Tag) (hk : Says as "k" Eq "" x.key) (hv : Says as "v" Eq "" x.value) :
    Inner t s [.start "tag" as, .stop "tag"] (addKids [x] [] []) := by
  have hsay : ∀ k v, Says as k Eq "" v → (attrOf as k).getD "" = v := by
    intro k v h
    unfold Says at h
    cases ha : attrOf as k with
    | none => rw [ha] at h; simp only at h; simp [h]
    | some x => rw [ha] at h; simpa using h
  refine ⟨ROp.modObj t fun o => { o with tags := o.tags ++ [x] },
    { s with lastCtx := ctxOf t }, ?_, by simp [XCtl.Same], ?_⟩
  · have ck : checkTag s.cur "tag" as = some (ROp.modObj t fun o => { o with tags := o.tags ++ [x] }) := by
      simp [checkTag, hcur, lastAttr_eq hu, hsay _ _ hk, hsay _ _ hv, TagList.add]
    rcases ht with rfl | rfl | rfl <;>
      simp only [ctxOf] at hc <;>
      simp [xmlRun, xmlStep, startElement, hc, ck, xinner, endElement, ctxOf]
  · intro r
    rw [(OpsTo.modObj ht _ r).1, (OpsTo.modObj ht _ r).2]
    rcases ht with rfl | rfl | rfl <;> simp [Regs.get, addKids, OsmObj.mapObj]

theorem filter_ref {as : XAttrs} (hu : UniqueNames as) {k s : String} (h : attrOf as k = some s) :
    (as.filter fun a => decide (a.1 = k)) = [(k, s)] := by
  induction as with
  | nil => cases h
  | cons a as ih =>
    obtain ⟨k', v⟩ := a
    have hu' := List.nodup_cons.mp hu
    unfold attrOf at h
    rw [List.lookup_cons] at h
    by_cases hk : k' = k
    · subst hk
      simp only [beq_self_eq_true, Option.some.injEq] at h
      subst h
      rw [List.filter_cons_of_pos (by simp)]
      congr 1
      rw [List.filter_eq_nil_iff]
      rintro ⟨k, v'⟩ hm
      simp only [decide_eq_true_eq]
      rintro rfl
      exact hu'.1 (List.mem_map.mpr ⟨_, hm, rfl⟩)
    · have hb : (k == k') = false := by simpa using fun h => hk h.symm
      rw [hb] at h
      rw [List.filter_cons_of_neg (by simpa using hk)]
      exact ih hu'.2 h

theorem kid_nd {s : XCtl} (hc : s.ctx = .way) (as : XAttrs) (hu : UniqueNames as) (x : String) (n : Int)
    (ha : attrOf as "ref" = some x) (hn : IntegerText x n) (h : InS64 n) :
    Inner .way s [.start "nd" as, .stop "nd"] (addKids [] [n] []) := by
  refine ⟨[.modWay fun w => { w with nodes := w.nodes ++ [{ ref := n }] }],
    { s with lastCtx := .way }, ?_, by simp [XCtl.Same], ?_⟩
  · simp [xmlRun, xmlStep, startElement, hc, xinner, endElement, filter_ref hu ha, strToId, integerText_atoll hn h]
  · intro r; simp [Regs.run, Regs.step, Regs.get, addKids]

theorem kid_emptyNd {s : XCtl} (hc : s.ctx = .way) (as : XAttrs) (ha : attrOf as "ref" = none) :
    Inner .way s [.start "nd" as, .stop "nd"] id := by
  have hf : (as.filter fun a => decide (a.1 = "ref")) = [] := by
    rw [List.filter_eq_nil_iff]
    intro a hm hk
    simp only [decide_eq_true_eq] at hk
    unfold attrOf at ha
    rw [List.lookup_eq_none_iff] at ha
    exact absurd hk.symm (by simpa using ha a hm)
  refine ⟨[], { s with lastCtx := .way }, ?_, by simp [XCtl.Same], ?_⟩
  · simp [xmlRun, xmlStep, startElement, hc, xinner, endElement, hf]
  · intro r; simp [Regs.run, Regs.get]

theorem kid_member {s : XCtl} (hc : s.ctx = .relation) (hcur : s.cur = some .relation) (hr : s.hasRel = true)
    (as : XAttrs) (hu : UniqueNames as) (m : Member) (h1 : Says as "type" TypeWord 'x' m.type)
    (h2 : Says as "ref" IntegerText 0 m.ref)
    (h3 : Says as "role" Eq "" m.role) (h : InS64 m.ref) (hl : m.role.utf8ByteSize ≤ 1021) :
    Inner .relation s [.start "member" as, .stop "member"] (addKids [] [] [m]) := by
  have hty : (lastAttr "type" "x" as).toList.head?.getD (Char.ofNat 0) = m.type := by
    rw [lastAttr_eq hu]
    unfold Says at h1
    cases ha : attrOf as "type" with
    | none => rw [ha] at h1; simp only at h1; simp [h1]
    | some ty =>
      rw [ha] at h1
      rcases h1 with ⟨rfl, h⟩ | ⟨rfl, h⟩ | ⟨rfl, h⟩ <;> simp [h]
  have href : strToId (lastAttr "ref" "" as) = m.ref := by
    rw [lastAttr_eq hu]
    unfold Says at h2
    cases ha : attrOf as "ref" with
    | none => rw [ha] at h2; simp only at h2; rw [h2]; decide
    | some x => rw [ha] at h2; simp [strToId, integerText_atoll h2 h]
  have hrole : lastAttr "role" "" as = m.role := by
    rw [lastAttr_eq hu]
    unfold Says at h3
    cases ha : attrOf as "role" with
    | none => rw [ha] at h3; simp only at h3; simp [h3]
    | some x => rw [ha] at h3; simpa using h3
  have hw : wrapS64 (wrapU64 m.ref) = m.ref := by
    unfold InS64 at h; unfold wrapS64 wrapU64; omega
  refine ⟨[.modRel fun r => { r with members := r.members ++ [m] }],
    { s with lastCtx := .relation }, ?_, by simp [XCtl.Same], ?_⟩
  · have hm : memberOp s as = ([.modRel fun r => { r with members := r.members ++ [m] }], none) := by
      simp [memberOp, href, hrole, hcur, hr, hty, hw, addMember_ok _ _ hl]
    simp [xmlRun, xmlStep, startElement, hc, xinner, endElement, hm]
  · intro r; simp [Regs.run, Regs.step, Regs.get, addKids]

theorem kids_read (o : OsmObj) (evs : List XEv) (ts : TagList) (ns : List Int) (ms : List Member)
    (h : KidsSay (elementName o) evs ts ns ms) (hn : ∀ n ∈ ns, InS64 n)
    (hm : ∀ m ∈ ms, InS64 m.ref ∧ m.role.utf8ByteSize ≤ 1021) (s : XCtl) (hc : s.ctx = ctxOf o.type)
    (hcur : s.cur = some o.type) (hr : o.type = .relation → s.hasRel = true) :
    Inner o.type s evs (addKids ts ns ms) := by
  induction h generalizing s with
  | nil =>
    have : addKids [] [] [] = id := by funext o; cases o <;> simp [addKids]
    rw [this]
    exact Inner.nil _ _
  | tag as t r ts ns ms hu hk hv _ ih =>
    have := Inner.append (kid_tag (isObj_type o) hc hcur as hu t hk hv) fun s' hs =>
      ih hn hm s' (by unfold XCtl.Same at hs; rw [hs]; exact hc) (by unfold XCtl.Same at hs; rw [hs]; exact hcur)
        (by unfold XCtl.Same at hs; rw [hs]; exact hr)
    rw [addKids_comp] at this
    exact this
  | nd as x n r ts ns ms hw hu ha hi _ ih =>
    have hty : o.type = .way := by cases o <;> simp [elementName, OsmObj.type] at hw ⊢
    rw [hty] at ih hc hcur hr ⊢
    have := Inner.append (kid_nd hc as hu x n ha hi (hn n (by simp))) fun s' hs =>
      ih (fun k hk => hn k (by simp [hk])) hm s' (by unfold XCtl.Same at hs; rw [hs]; exact hc)
        (by unfold XCtl.Same at hs; rw [hs]; exact hcur) (by unfold XCtl.Same at hs; rw [hs]; exact hr)
    rw [addKids_comp] at this
    exact this
  | emptyNd as r ts ns ms hw ha _ ih =>
    have hty : o.type = .way := by cases o <;> simp [elementName, OsmObj.type] at hw ⊢
    rw [hty] at ih hc hcur hr ⊢
    have := Inner.append (kid_emptyNd hc as ha) fun s' hs =>
      ih hn hm s' (by unfold XCtl.Same at hs; rw [hs]; exact hc)
        (by unfold XCtl.Same at hs; rw [hs]; exact hcur) (by unfold XCtl.Same at hs; rw [hs]; exact hr)
    simpa using this
  | member as m r ts ns ms hw hu h1 h2 h3 _ ih =>
    have hty : o.type = .relation := by cases o <;> simp [elementName, OsmObj.type] at hw ⊢
    rw [hty] at ih hc hcur hr ⊢
    have := Inner.append (kid_member hc hcur (hr rfl) as hu m h1 h2 h3 (hm m (by simp)).1 (hm m (by simp)).2)
      fun s' hs => ih hn (fun k hk => hm k (by simp [hk])) s' (by unfold XCtl.Same at hs; rw [hs]; exact hc)
        (by unfold XCtl.Same at hs; rw [hs]; exact hcur) (by unfold XCtl.Same at hs; rw [hs]; exact hr)
    rw [addKids_comp] at this
    exact this
  | other n as r ts ns ms hk _ ih =>
    have hin : InObj s := by
      rcases isObj_type o with h | h | h <;> rw [h] at hc <;> simp [InObj, hc, ctxOf]
    have hname : nameOfCtx s.ctx = elementName o := by rw [hc]; cases o <;> rfl
    have h1 : Inner o.type s [.start n as, .stop n] id :=
      ⟨[], _, drop_leaf s hin n as (by rw [hname]; exact hk), by simp [XCtl.Same], OpsTo.nil _⟩
    have := Inner.append h1 fun s' hs =>
      ih hn hm s' (by unfold XCtl.Same at hs; rw [hs]; exact hc) (by unfold XCtl.Same at hs; rw [hs]; exact hcur)
        (by unfold XCtl.Same at hs; rw [hs]; exact hr)
    exact this

/-! ### Objects -/

theorem fold_way (as : XAttrs) (w : Way) : ∃ ob, as.foldl attrStep (.way w) = .way ⟨ob, w.nodes⟩ := by
  induction as generalizing w with
  | nil => exact ⟨w.obj, rfl⟩
  | cons a as ih =>
    have : ∃ ob, attrStep (.way w) a = .way ⟨ob, w.nodes⟩ := by
      unfold attrStep
      split_ifs
      · exact ⟨w.obj, rfl⟩
      · exact ⟨w.obj, rfl⟩
      · exact ⟨_, rfl⟩
    obtain ⟨ob, h⟩ := this
    rw [List.foldl_cons, h]
    exact ih _

theorem fold_relation (as : XAttrs) (x : Relation) :
    ∃ ob, as.foldl attrStep (.relation x) = .relation ⟨ob, x.members⟩ := by
  induction as generalizing x with
  | nil => exact ⟨x.obj, rfl⟩
  | cons a as ih =>
    have : ∃ ob, attrStep (.relation x) a = .relation ⟨ob, x.members⟩ := by
      unfold attrStep
      split_ifs
      · exact ⟨x.obj, rfl⟩
      · exact ⟨x.obj, rfl⟩
      · exact ⟨_, rfl⟩
    obtain ⟨ob, h⟩ := this
    rw [List.foldl_cons, h]
    exact ih _

/-- A node. (helper for statements and proofs, no counterpart in /repo) -/
def isNodeObj : OsmObj → Prop
  | .node _ => True
  | _ => False

/-- The position of a node. (helper for statements and proofs, no counterpart in /repo) -/
def posOf : OsmObj → Position
  | .node n => n.position
  | _ => Position.undef

theorem step_isNode (o : OsmObj) (kv : String × String) (h : isNodeObj o) : isNodeObj (attrStep o kv) := by
  cases o with
  | node n => unfold attrStep; split_ifs <;> trivial
  | way w => cases h
  | relation r => cases h

theorem fold_isNode (as : XAttrs) (o : OsmObj) (h : isNodeObj o) : isNodeObj (as.foldl attrStep o) := by
  induction as generalizing o with
  | nil => exact h
  | cons a as ih => exact ih _ (step_isNode o a h)

theorem step_pos (o : OsmObj) (k v : String) (h : isNodeObj o) :
    posOf (attrStep o (k, v)) =
      if k = "lon" then { posOf o with x := (textToFix v).getD 0 }
      else if k = "lat" then { posOf o with y := (textToFix v).getD 0 } else posOf o := by
  cases o with
  | node n => unfold attrStep; split_ifs <;> rfl
  | way w => cases h
  | relation r => cases h

theorem step_pos_keep (o : OsmObj) (k v : String) (h1 : k ≠ "lon") (h2 : k ≠ "lat") :
    posOf (attrStep o (k, v)) = posOf o := by
  unfold attrStep
  simp only [h1, h2, if_false]
  cases o <;> rfl

theorem fold_pos (as : XAttrs) (o : OsmObj) (hu : UniqueNames as) (hf : ∀ kv ∈ as, AttrFine kv) (ho : isNodeObj o) :
    posOf (as.foldl attrStep o) =
      ⟨match attrOf as "lon" with | none => (posOf o).x | some v => (textToFix v).getD 0,
       match attrOf as "lat" with | none => (posOf o).y | some v => (textToFix v).getD 0⟩ := by
  have hx := fold_field (fun o => (posOf o).x) "lon" (fun v => (textToFix v).getD 0) isNodeObj step_isNode
    (by intro o v h _; simp only [step_pos o _ v h, if_true])
    (by
      intro o k v hk
      by_cases h2 : k = "lat"
      · subst h2
        cases o with
        | node n => simp only [step_pos _ _ _ (show isNodeObj (.node n) from trivial), hk, if_false, if_true]
        | way w => simp [attrStep, posOf]
        | relation r => simp [attrStep, posOf]
      · simp only [step_pos_keep o k v hk h2]) as o hu hf ho
  have hy := fold_field (fun o => (posOf o).y) "lat" (fun v => (textToFix v).getD 0) isNodeObj step_isNode
    (by intro o v h _; simp only [step_pos o _ v h, show ("lat" : String) ≠ "lon" by decide, if_false, if_true])
    (by
      intro o k v hk
      by_cases h2 : k = "lon"
      · subst h2
        cases o with
        | node n => simp only [step_pos _ _ _ (show isNodeObj (.node n) from trivial), if_true]
        | way w => simp [attrStep, posOf]
        | relation r => simp [attrStep, posOf]
      · simp only [step_pos_keep o k v h2 hk]) as o hu hf ho
  rw [← hx, ← hy]

theorem says_coord {as : XAttrs} {k : String} {d x : Int} (h : Says as k CoordinateText d x) (hx : InS32 x) :
    (match attrOf as k with | none => d | some s => (textToFix s).getD 0) = x ∧
    ∀ s, attrOf as k = some s → (textToFix s).isSome := by
  unfold Says at h
  cases ha : attrOf as k with
  | none => rw [ha] at h; exact ⟨h.symm, by simp⟩
  | some s =>
    rw [ha] at h
    have := coordinateText_fix h hx
    refine ⟨by simp [this], ?_⟩
    intro s' hs; cases hs; simp [this]

/-- The object without its children. (helper for statements and proofs, no counterpart in /repo) -/
def bare : OsmObj → OsmObj
  | .node n => .node ⟨{ n.obj with tags := [] }, n.position⟩
  | .way w => .way ⟨{ w.obj with tags := [] }, []⟩
  | .relation x => .relation ⟨{ x.obj with tags := [] }, []⟩

/-- The object after its start tag. -/
theorem object_start (d : Bool) (as : XAttrs) (kids : List XEv) (o : OsmObj) (h : ObjectSays d as kids o)
    (hf : ObjectFits o) : (∀ kv ∈ as, AttrFine kv) ∧ ∀ r : Regs,
      as.foldl attrStep (((r.step (.prepare o.type)).1.get o.type).mapObj fun p => { p with visible := !d }) = bare o := by
  obtain ⟨f1, f2, f3, f4, f5, f6, f7⟩ := hf
  cases o with
  | node n =>
    obtain ⟨ha, hlon, hlat, _⟩ := h
    have hx := says_coord hlon f7.1
    have hy := says_coord hlat f7.2
    have hfine := says_fine ha f6 hx.2 hy.2
    refine ⟨hfine, fun r => ?_⟩
    set x : OsmObj := ((r.step (.prepare (OsmObj.node n).type)).1.get (OsmObj.node n).type).mapObj
      fun p => { p with visible := !d } with hxdef
    have hnode : isNodeObj x := by rw [hxdef]; trivial
    have hobj := says_obj ha f1 f2 f3 f5 hfine x (by rw [hxdef]; rfl)
    have hpos := fold_pos as x ha.unique hfine hnode
    have hu : posOf x = Position.undef := by rw [hxdef]; rfl
    rw [hu, hx.1, hy.1] at hpos
    have hn := fold_isNode as x hnode
    generalize as.foldl attrStep x = z at hobj hpos hn
    cases z with
    | node m =>
      cases m
      simp only [OsmObj.obj, posOf] at hobj hpos
      rw [hobj, hpos]
      rfl
    | way w => cases hn
    | relation w => cases hn
  | way w =>
    obtain ⟨ha, h1, h2, _, _⟩ := h
    have hfine := says_fine ha f6 (by simp [h1]) (by simp [h2])
    refine ⟨hfine, fun r => ?_⟩
    have hobj := says_obj ha f1 f2 f3 f5 hfine
      (((r.step (.prepare (OsmObj.way w).type)).1.get (OsmObj.way w).type).mapObj fun p => { p with visible := !d }) rfl
    obtain ⟨ob, he⟩ := fold_way as ⟨{ Obj.new with visible := !d }, []⟩
    have : (((r.step (.prepare (OsmObj.way w).type)).1.get (OsmObj.way w).type).mapObj
      fun p => { p with visible := !d }) = .way ⟨{ Obj.new with visible := !d }, []⟩ := rfl
    rw [this] at hobj ⊢
    rw [he] at hobj ⊢
    simp only [OsmObj.obj] at hobj
    rw [hobj]
    rfl
  | relation w =>
    obtain ⟨ha, h1, h2, _⟩ := h
    have hfine := says_fine ha f6 (by simp [h1]) (by simp [h2])
    refine ⟨hfine, fun r => ?_⟩
    have hobj := says_obj ha f1 f2 f3 f5 hfine
      (((r.step (.prepare (OsmObj.relation w).type)).1.get (OsmObj.relation w).type).mapObj
        fun p => { p with visible := !d }) rfl
    obtain ⟨ob, he⟩ := fold_relation as ⟨{ Obj.new with visible := !d }, []⟩
    have : (((r.step (.prepare (OsmObj.relation w).type)).1.get (OsmObj.relation w).type).mapObj
      fun p => { p with visible := !d }) = .relation ⟨{ Obj.new with visible := !d }, []⟩ := rfl
    rw [this] at hobj ⊢
    rw [he] at hobj ⊢
    simp only [OsmObj.obj] at hobj
    rw [hobj]
    rfl

/-- The object after its children. -/
theorem object_kids (d : Bool) (as : XAttrs) (kids : List XEv) (o : OsmObj) (h : ObjectSays d as kids o)
    (hf : ObjectFits o) (s : XCtl) (hc : s.ctx = ctxOf o.type) (hcur : s.cur = some o.type)
    (hr : o.type = .relation → s.hasRel = true) :
    ∃ g, Inner o.type s kids g ∧ g (bare o) = o := by
  obtain ⟨_, _, _, _, _, _, f7⟩ := hf
  cases o with
  | node n =>
    obtain ⟨_, _, _, hk⟩ := h
    exact ⟨_, kids_read (.node n) kids _ _ _ hk (by simp) (by simp) s hc hcur hr, by simp [addKids, bare]⟩
  | way w =>
    obtain ⟨_, _, _, hp, hk⟩ := h
    refine ⟨_, kids_read (.way w) kids _ _ _ hk ?_ (by simp) s hc hcur hr, ?_⟩
    · intro n hn
      obtain ⟨x, hx, rfl⟩ := List.mem_map.mp hn
      exact f7 x hx
    · have : (w.nodes.map WayNode.ref).map (fun r => ({ ref := r } : WayNode)) = w.nodes := by
        rw [List.map_map]
        conv => rhs; rw [← List.map_id w.nodes]
        apply List.map_congr_left
        intro x hx
        have := hp x hx
        cases x
        simp only [Function.comp_apply, id] at this ⊢
        rw [this]
      simp [addKids, bare, this]
  | relation x =>
    obtain ⟨_, _, _, hk⟩ := h
    exact ⟨_, kids_read (.relation x) kids _ _ _ hk (by simp) f7 s hc hcur hr, by simp [addKids, bare]⟩

theorem reads_object (d : Bool) (as : XAttrs) (kids : List XEv) (o : OsmObj) (h : ObjectSays d as kids o)
    (hf : ObjectFits o) (m : Meta) (last : ObjType) :
    Reads d m last (.start (elementName o) as :: kids ++ [.stop (elementName o)]) d m o.type
      (afterAndBefore m last o.type ++ [.obj o]) := by
  intro s ⟨hc, hdel, hinfo, hlast⟩
  have ht := isObj_type o
  obtain ⟨hfine, hstart⟩ := object_start d as kids o h hf
  obtain ⟨ops3, ea, ga⟩ := attrsTo_fold ht (s.hasNode || o.type == .node) (by intro h; simp [h]) as hfine
  let s1 : XCtl := { s with last := o.type, cur := some o.type, ctx := ctxOf o.type,
                            hasNode := s.hasNode || o.type == .node,
                            hasRel := s.hasRel || o.type == .relation }
  have e1 : startElement s (elementName o) as =
      ((afterAndBefore s.info s.last o.type).map ROp.emit ++ [ROp.prepare o.type] ++
        (if s.inDelete then ROp.modObj o.type fun o => { o with visible := false } else []) ++ ops3,
       .ok s1) := by
    rw [startElement_object s o _ hc]
    simp only [startObject, ea, s1]
  obtain ⟨g2, ⟨ops4, s2, e2, hs2, gk⟩, hk⟩ := object_kids d as kids o h hf s1 rfl rfl (by intro h; simp [s1, h])
  have hs2' : s2 = { s1 with lastCtx := s2.lastCtx } := hs2
  have e3 : endElement s2 (elementName o) =
      ([.call o.type], .ok { s2 with cur := none, ctx := .top }) := by
    have : s2.ctx = ctxOf o.type := by rw [hs2']
    unfold endElement
    cases o <;> simp only [this, ctxOf, OsmObj.type]
  refine ⟨((afterAndBefore s.info s.last o.type).map ROp.emit ++ [ROp.prepare o.type] ++
        (if s.inDelete then ROp.modObj o.type fun o => { o with visible := false } else []) ++ ops3) ++
      (ops4 ++ [.call o.type]), { s2 with cur := none, ctx := .top }, ?_, ?_, ?_⟩
  · rw [List.cons_append, xmlRun_cons]
    simp only [xmlStep, e1]
    rw [xmlRun_append, e2]
    simp only [xmlRun, xmlStep, e3, List.append_nil]
  · rw [hs2']
    exact ⟨rfl, hdel, hinfo, rfl⟩
  · intro r
    simp only [Regs.run_append, run_emits, List.nil_append]
    rw [hinfo, hlast]
    have hp : ∀ r : Regs, r.run [ROp.prepare o.type] = ((r.step (.prepare o.type)).1, []) := by
      intro r; rcases ht with h | h | h <;> rw [h] <;> rfl
    simp only [hp, List.append_nil]
    have hdelop : OpsTo o.type (if s.inDelete then ROp.modObj o.type fun o => { o with visible := false } else [])
        (if s.inDelete then OsmObj.mapObj fun o => { o with visible := false } else id) := by
      split
      · exact OpsTo.modObj ht _
      · exact OpsTo.nil _
    have h4 := hdelop ((r.step (.prepare o.type)).1)
    rw [h4.2, List.append_nil]
    generalize hr4 : ((r.step (.prepare o.type)).1.run _).1 = r4 at h4 ⊢
    have h5 := ga r4
    rw [h5.2, List.append_nil]
    generalize hr5 : (r4.run ops3).1 = r5 at h5 ⊢
    have h6 := gk r5
    rw [h6.2, List.nil_append]
    generalize hr6 : (r5.run ops4).1 = r6 at h6 ⊢
    congr 1
    simp only [Regs.run, call_object r6 o.type ht, List.append_nil, List.cons.injEq, and_true,
      Cb.obj.injEq]
    rw [h6.1, h5.1, h4.1]
    have hvis : (if s.inDelete then OsmObj.mapObj (fun o => { o with visible := false }) else id)
        ((r.step (.prepare o.type)).1.get o.type) =
        ((r.step (.prepare o.type)).1.get o.type).mapObj fun p => { p with visible := !d } := by
      rw [hdel]
      cases d
      · cases o <;> rfl
      · cases o <;> rfl
    rw [hvis]
    dsimp only
    rw [hstart r]
    exact hk

/-! ### Documents -/

/-- The metadata after a part of a document. (helper for statements and proofs, no counterpart in
/repo) -/
def itemMeta (m : Meta) : List Item → Meta
  | [] => m
  | .obj _ :: r => itemMeta m r
  | .box p q :: r => itemMeta { m with bounds := (m.bounds.extend p).extend q } r

/-- The calls for a part of a document. (helper for statements and proofs, no counterpart in /repo) -/
def itemCalls (m : Meta) (last : ObjType) : List Item → List Cb
  | [] => []
  | .obj o :: r => afterAndBefore m last o.type ++ .obj o :: itemCalls m o.type r
  | .box p q :: r => itemCalls { m with bounds := (m.bounds.extend p).extend q } last r

theorem objectsOf_append (a b : List Item) : objectsOf (a ++ b) = objectsOf a ++ objectsOf b := by
  induction a with
  | nil => rfl
  | cons i a ih => cases i <;> simp [objectsOf, ih]

theorem itemMeta_append (m : Meta) (a b : List Item) : itemMeta m (a ++ b) = itemMeta (itemMeta m a) b := by
  induction a generalizing m with
  | nil => rfl
  | cons i a ih => cases i <;> simp [itemMeta, ih]

theorem itemCalls_append (m : Meta) (l : ObjType) (a b : List Item) :
    itemCalls m l (a ++ b) = itemCalls m l a ++ itemCalls (itemMeta m a) (lastType l (objectsOf a)) b := by
  induction a generalizing m l with
  | nil => rfl
  | cons i a ih =>
    cases i with
    | obj o => simp [itemCalls, itemMeta, objectsOf, ih, lastType_cons]
    | box p q => simp [itemCalls, itemMeta, objectsOf, ih]

theorem boundsAttrs_eq {as : XAttrs} (hu : UniqueNames as) (p q : Position) (s1 s2 s3 s4 : String) (x1 x2 x3 x4 : Int)
    (h1 : textToFix s1 = some x1) (h2 : textToFix s2 = some x2) (h3 : textToFix s3 = some x3)
    (h4 : textToFix s4 = some x4)
    (a1 : attrOf as "minlon" = some s1 ∨ (attrOf as "minlon" = none ∧ p.x = x1))
    (a2 : attrOf as "minlat" = some s2 ∨ (attrOf as "minlat" = none ∧ p.y = x2))
    (a3 : attrOf as "maxlon" = some s3 ∨ (attrOf as "maxlon" = none ∧ q.x = x3))
    (a4 : attrOf as "maxlat" = some s4 ∨ (attrOf as "maxlat" = none ∧ q.y = x4)) :
    boundsAttrs p q as = some (⟨x1, x2⟩, ⟨x3, x4⟩) := by
  induction as generalizing p q with
  | nil =>
    simp only [attrOf, List.lookup_nil, reduceCtorEq, true_and, false_or] at a1 a2 a3 a4
    obtain ⟨px, py⟩ := p
    obtain ⟨qx, qy⟩ := q
    simp only at a1 a2 a3 a4
    subst a1 a2 a3 a4
    rfl
  | cons a as ih =>
    obtain ⟨k, v⟩ := a
    have hu' := List.nodup_cons.mp hu
    have hnone := lookup_none_of_not_mem hu'.1
    have ih := ih hu'.2
    simp only at hnone
    unfold attrOf at a1 a2 a3 a4
    rw [List.lookup_cons] at a1 a2 a3 a4
    unfold boundsAttrs
    by_cases k1 : k = "minlon"
    · subst k1
      simp [-List.lookup_eq_none_iff] at a1 a2 a3 a4
      subst a1
      simp only [h1, if_true]
      exact ih _ _ (Or.inr ⟨hnone, rfl⟩) a2 a3 a4
    by_cases k2 : k = "minlat"
    · subst k2
      simp [-List.lookup_eq_none_iff] at a1 a2 a3 a4
      subst a2
      simp only [k1, h2, if_true, if_false]
      exact ih _ _ a1 (Or.inr ⟨hnone, rfl⟩) a3 a4
    by_cases k3 : k = "maxlon"
    · subst k3
      simp [-List.lookup_eq_none_iff] at a1 a2 a3 a4
      subst a3
      simp only [k1, k2, h3, if_true, if_false]
      exact ih _ _ a1 a2 (Or.inr ⟨hnone, rfl⟩) a4
    by_cases k4 : k = "maxlat"
    · subst k4
      simp [-List.lookup_eq_none_iff] at a1 a2 a3 a4
      subst a4
      simp only [k1, k2, k3, h4, if_true, if_false]
      exact ih _ _ a1 a2 a3 (Or.inr ⟨hnone, rfl⟩)
    have e1 : ("minlon" == k) = false := by simpa using fun h => k1 h.symm
    have e2 : ("minlat" == k) = false := by simpa using fun h => k2 h.symm
    have e3 : ("maxlon" == k) = false := by simpa using fun h => k3 h.symm
    have e4 : ("maxlat" == k) = false := by simpa using fun h => k4 h.symm
    rw [e1] at a1; rw [e2] at a2; rw [e3] at a3; rw [e4] at a4
    simp only [k1, k2, k3, k4, if_false]
    exact ih _ _ a1 a2 a3 a4

theorem reads_start_other (d : Bool) (m : Meta) (l : ObjType) (n : String) (as : XAttrs) (h : ¬ KnownTop n) :
    Reads d m l [.start n as] d m l [] ∧ Reads d m l [.stop n] d m l [] := by
  simp only [KnownTop, IsObjName, not_or] at h
  obtain ⟨⟨h1, h2, h3⟩, h4, h5, h6, h7⟩ := h
  constructor <;> intro s hs
  · exact ⟨[], s, by simp [xmlRun, xmlStep, startElement, hs.ctx, h1, h2, h3, h4, h5], hs, fun r => rfl⟩
  · exact ⟨[], s, by simp [xmlRun, xmlStep, endElement, hs.ctx, h5, h6, h7], hs, fun r => rfl⟩

theorem reads_delete (m : Meta) (l : ObjType) (as : XAttrs) :
    Reads false m l [.start "delete" as] true m l [] ∧ Reads true m l [.stop "delete"] false m l [] := by
  constructor <;> intro s hs
  · exact ⟨[], { s with inDelete := true }, by simp [xmlRun, xmlStep, startElement, hs.ctx],
      ⟨hs.ctx, rfl, hs.info, hs.last⟩, fun r => rfl⟩
  · exact ⟨[], { s with inDelete := false }, by simp [xmlRun, xmlStep, endElement, hs.ctx],
      ⟨hs.ctx, rfl, hs.info, hs.last⟩, fun r => rfl⟩

theorem content_read (d : Bool) (evs : List XEv) (items : List Item) (h : ContentSays d evs items)
    (hf : ∀ o ∈ objectsOf items, ObjectFits o) (m : Meta) (l : ObjType) :
    Reads d m l evs d (itemMeta m items) (lastType l (objectsOf items)) (itemCalls m l items) := by
  induction h generalizing m l with
  | nil d => exact Reads.nil _ _ _
  | object d o as kids r items ho _ ih =>
    have h1 := reads_object d as kids o ho (hf o (by simp [objectsOf])) m l
    have h2 := h1.append (ih (fun x hx => hf x (by simp [objectsOf, hx])) m o.type)
    have e : XEv.start (elementName o) as :: kids ++ .stop (elementName o) :: r =
        (.start (elementName o) as :: kids ++ [.stop (elementName o)]) ++ r := by simp
    rw [e]
    simp only [itemMeta, itemCalls, objectsOf, lastType_cons]
    simpa using h2
  | bounds d as s1 s2 s3 s4 p q r items hu a1 c1 a2 c2 a3 c3 a4 c4 hp hq _ ih =>
    have hb := boundsAttrs_eq hu Position.undef Position.undef s1 s2 s3 s4 p.x p.y q.x q.y
      (coordinateText_fix c1 hp.1) (coordinateText_fix c2 hp.2) (coordinateText_fix c3 hq.1) (coordinateText_fix c4 hq.2)
      (Or.inl a1) (Or.inl a2) (Or.inl a3) (Or.inl a4)
    have h1 : Reads d m l [.start "bounds" as, .stop "bounds"] d
        { m with bounds := (m.bounds.extend p).extend q } l [] := by
      intro s hs
      refine ⟨[], { s with info := { m with bounds := (m.bounds.extend p).extend q } }, ?_,
        ⟨hs.ctx, hs.del, rfl, hs.last⟩, fun r => rfl⟩
      simp [xmlRun, xmlStep, startElement, endElement, hs.ctx, hb, hs.info]
    exact h1.append (ih (fun x hx => hf x (by simpa [objectsOf] using hx)) _ l)
  | delete as inner r items items' _ _ ih1 ih2 =>
    rw [objectsOf_append] at hf
    have h := (((reads_delete m l as).1.append (ih1 (fun x hx => hf x (by simp [hx])) m l)).append
      (reads_delete _ _ as).2).append (ih2 (fun x hx => hf x (by simp [hx])) _ _)
    have e : XEv.start "delete" as :: inner ++ .stop "delete" :: r =
        ([.start "delete" as] ++ inner ++ [.stop "delete"]) ++ r := by simp
    rw [e, itemMeta_append, itemCalls_append, objectsOf_append, lastType_append]
    simpa using h
  | other d n as inner r items items' hk _ _ ih1 ih2 =>
    rw [objectsOf_append] at hf
    have h := (((reads_start_other d m l n as hk).1.append (ih1 (fun x hx => hf x (by simp [hx])) m l)).append
      (reads_start_other d _ _ n as hk).2).append (ih2 (fun x hx => hf x (by simp [hx])) _ _)
    have e : XEv.start n as :: inner ++ .stop n :: r = ([.start n as] ++ inner ++ [.stop n]) ++ r := by simp
    rw [e, itemMeta_append, itemCalls_append, objectsOf_append, lastType_append]
    simpa using h

/-- The metadata the reader has at the first object: the box around the corners, the program that wrote
the file, and whether the file has several versions of objects. (helper for statements and
proofs, no counterpart in /repo) -/
def documentMeta (ft : FileType) (generator : String) (items : List Item) : Meta :=
  { bounds := (cornersBefore items).foldl Bounds.extend Bounds.empty, generator := generator, multi := ft.multi }

theorem itemCalls_later (m m' : Meta) (l : ObjType) (hl : l ≠ .unknown) (items : List Item) :
    itemCalls m l items = seqCalls m' l (objectsOf items) := by
  induction items generalizing m l with
  | nil => rfl
  | cons i r ih =>
    cases i with
    | obj o =>
      simp only [itemCalls, objectsOf, seqCalls]
      rw [ih _ _ (type_ne_unknown o)]
      congr 1
      unfold afterAndBefore afterCalls
      cases l <;> first | rfl | exact absurd rfl hl
    | box p q => exact ih _ l hl

theorem itemCalls_first (m : Meta) (items : List Item) :
    itemCalls m .unknown items =
      seqCalls { m with bounds := (cornersBefore items).foldl Bounds.extend m.bounds } .unknown (objectsOf items) := by
  induction items generalizing m with
  | nil => rfl
  | cons i r ih =>
    cases i with
    | obj o =>
      simp only [itemCalls, objectsOf, seqCalls, cornersBefore, List.foldl_nil]
      rw [itemCalls_later m m _ (type_ne_unknown o)]
    | box p q =>
      simp only [itemCalls, objectsOf, cornersBefore, List.foldl_cons]
      rw [ih]

theorem rootAttrs_eq {as : XAttrs} (hu : UniqueNames as) (hv : ∀ v, attrOf as "version" = some v → v = "0.6")
    (m : Meta) : rootAttrs m as = .ok { m with generator := (attrOf as "generator").getD m.generator } := by
  induction as generalizing m with
  | nil => rfl
  | cons a as ih =>
    obtain ⟨k, v⟩ := a
    have hu' := List.nodup_cons.mp hu
    have hnone : attrOf as k = none := lookup_none_of_not_mem hu'.1
    unfold rootAttrs
    have hrest : ∀ k0, k ≠ k0 → attrOf ((k, v) :: as) k0 = attrOf as k0 := by
      intro k0 hk
      unfold attrOf
      rw [List.lookup_cons, show (k0 == k) = false by simpa using fun h => hk h.symm]
    by_cases k1 : k = "version"
    · subst k1
      have : v = "0.6" := hv v (by simp [attrOf, List.lookup_cons])
      simp only [this, if_true]
      rw [ih hu'.2 (by rw [hnone]; simp), ← this, hrest "generator" (by decide)]
    · rw [hrest "version" k1] at hv
      by_cases k2 : k = "generator"
      · subst k2
        simp only [k1, if_true, if_false]
        rw [ih hu'.2 hv, hnone]
        simp [attrOf, List.lookup_cons]
      · simp only [k1, k2, if_false]
        rw [ih hu'.2 hv, hrest "generator" k2]

/-- **C74**: any OSM XML document, with its attributes in any order, elements unknown to the reader at any
place, with or without `delete` sections, from whatever program: reading it makes exactly the calls of the
protocol for the objects that the document says, in the order of the document, with the metadata that
precedes the first object. -/
theorem xml_reads_meaning (ft : FileType) (evs : List XEv) (generator : String) (items : List Item)
    (hd : DocumentSays evs generator items) (hne : objectsOf items ≠ [])
    (hf : ∀ o ∈ objectsOf items, ObjectFits o) (h : Stops) (hh : ∀ l, h l = false) :
    xmlParse ft h ⟨evs, none⟩ = (protocol (documentMeta ft generator items) (objectsOf items), .returned) := by
  obtain ⟨n, as, inner, hn, hu, hv, hg, hc, rfl⟩ := hd
  let m0 : Meta := ⟨Bounds.empty, generator, ft.multi⟩
  let s0 : XCtl := { XCtl.init ft with info := m0, ctx := .top }
  have hgen : (attrOf as "generator").getD "" = generator := by
    unfold Says at hg
    cases ha : attrOf as "generator" with
    | none => rw [ha] at hg; exact hg.symm
    | some s => rw [ha] at hg; exact hg
  have e0 : xmlStep (XCtl.init ft) (.start n as) = ([], .ok s0) := by
    simp only [xmlStep, startElement, XCtl.init, hn, if_true, rootAttrs_eq hu hv, Meta.new, hgen, s0, m0]
  obtain ⟨ops, s', e1, hb, hcalls⟩ := content_read false inner items hc hf m0 .unknown s0 ⟨rfl, rfl, rfl, rfl⟩
  have e2 : xmlStep s' (.stop n) = ([], .ok { s' with ctx := .root }) := by
    simp [xmlStep, endElement, hb.ctx, hn]
  have e3 : xmlRun (XCtl.init ft) (.start n as :: inner ++ [.stop n]) = (ops, .ok { s' with ctx := .root }) := by
    rw [List.cons_append, xmlRun_cons, e0]
    simp only
    rw [xmlRun_append, e1]
    simp only [xmlRun, e2, List.append_nil, List.nil_append]
  unfold xmlParse
  simp only [e3]
  rw [no_stop _ _ h hh, hcalls]
  simp only
  rw [itemCalls_first, ← allCalls_protocol _ _ hne]
  unfold allCalls
  rw [hb.info, hb.last]
  have hlast : lastType .unknown (objectsOf items) ≠ .unknown := by
    unfold lastType
    cases hl : (objectsOf items).getLast? with
    | none => exact absurd (List.getLast?_eq_none_iff.mp hl) hne
    | some o => exact type_ne_unknown o
  congr 1
  congr 1
  congr 1
  unfold afterAndBefore afterCalls
  cases hl : lastType .unknown (objectsOf items) <;> first | rfl | exact absurd hl hlast

/-- **C74**: a document of any other version than 0.6 is refused with an exception; nothing is called on
the handler. -/
theorem xml_other_version_refused (ft : FileType) (n : String) (as : XAttrs) (rest : List XEv) (v : String)
    (hn : n = "osm" ∨ n = "osmChange") (ha : attrOf as "version" = some v) (hv : v ≠ "0.6") (h : Stops)
    (err : Option Fail) :
    xmlParse ft h ⟨.start n as :: rest, err⟩ = ([], .threw (.exn "can only read version 0.6 files")) := by
  have key : ∀ (as : XAttrs) (m : Meta), attrOf as "version" = some v →
      rootAttrs m as = .error (.exn "can only read version 0.6 files") := by
    intro as
    induction as with
    | nil => intro m h; cases h
    | cons a as ih =>
      obtain ⟨k, w⟩ := a
      intro m h
      unfold attrOf at h
      rw [List.lookup_cons] at h
      unfold rootAttrs
      by_cases k1 : k = "version"
      · subst k1
        simp only [beq_self_eq_true, Option.some.injEq] at h
        subst h
        simp [hv]
      · rw [show ("version" == k) = false by simpa using fun h => k1 h.symm] at h
        by_cases k2 : k = "generator"
        · simp only [k2, if_true]
          rw [if_neg (by decide)]
          exact ih _ h
        · simp only [k1, k2, if_false]
          exact ih _ h
  have e : xmlRun (XCtl.init ft) (.start n as :: rest) = ([], .error (.exn "can only read version 0.6 files")) := by
    rw [xmlRun_cons]
    simp only [xmlStep, startElement, XCtl.init, hn, if_true, key as _ ha]
  unfold xmlParse
  simp only [e]
  unfold parseFrame
  rfl

/-! A document with attributes in another order, unknown attributes and elements, and a `delete` section. -/

/-- The content of the document. (data for the examples, no counterpart in /repo) -/
def meaningContent : List XEv :=
  [.start "note" [], .stop "note",
   .start "bounds" [("maxlat", "50.5"), ("minlat", "+50"), ("minlon", "-.5"), ("maxlon", "8")], .stop "bounds",
   .start "create" [],
   .start "node" [("lat", "50.25"), ("user", "a"), ("visible", "true"), ("color", "red"), ("lon", "-1.00000004"),
     ("timestamp", "2012-01-02T03:04:05Z"), ("id", "-17")],
   .start "tag" [("v", "pub"), ("k", "amenity")], .stop "tag",
   .start "label" [("x", "1")], .stop "label",
   .stop "node",
   .stop "create",
   .start "delete" [("if-unused", "true")],
   .start "way" [("version", "3"), ("id", "5")],
   .start "nd" [("x", "1"), ("ref", "7")], .stop "nd",
   .start "tag" [("k", "name"), ("v", "")], .stop "tag",
   .start "nd" [("ref", "-8")], .stop "nd",
   .stop "way",
   .start "relation" [("id", "1")],
   .start "member" [("role", "outer"), ("ref", "5"), ("type", "way")], .stop "member",
   .stop "relation",
   .stop "delete"]

/-- The document. (data for the examples, no counterpart in /repo) -/
def meaningEvents : List XEv :=
  .start "osmChange" [("generator", "JOSM"), ("upload", "no"), ("version", "0.6")] :: meaningContent ++
    [.stop "osmChange"]

/-- What it says. (data for the examples, no counterpart in /repo) -/
def meaningItems : List Item :=
  [.box ⟨-5000000, 500000000⟩ ⟨80000000, 505000000⟩,
   .obj (.node ⟨{ Obj.new with id := -17, user := "a", timestamp := 1325473445, tags := [⟨"amenity", "pub"⟩] },
     ⟨-10000000, 502500000⟩⟩),
   .obj (.way ⟨{ Obj.new with id := 5, version := 3, visible := false, tags := [⟨"name", ""⟩] },
     [{ ref := 7 }, { ref := -8 }]⟩),
   .obj (.relation ⟨{ Obj.new with id := 1, visible := false }, [⟨'w', 5, "outer"⟩]⟩)]

theorem digit_of {c : Char} (h : isDigit c = true) : Digit c := (Time.digit_iff c).mpr h

theorem integerText_plain (s : String) (ds : List Char) (n : Nat) (h : s.toList = ds) (hne : ds ≠ [])
    (hd : ∀ c ∈ ds, isDigit c = true) (hn : digitsVal 0 ds = n) : IntegerText s n :=
  ⟨ds, hne, fun c hc => digit_of (hd c hc), Or.inl ⟨Or.inl h, by rw [Time.decimal_eq ds hd, hn]⟩⟩

theorem integerText_minus (s : String) (ds : List Char) (n : Nat) (h : s.toList = '-' :: ds) (hne : ds ≠ [])
    (hd : ∀ c ∈ ds, isDigit c = true) (hn : digitsVal 0 ds = n) : IntegerText s (-n) :=
  ⟨ds, hne, fun c hc => digit_of (hd c hc), Or.inr ⟨h, by rw [Time.decimal_eq ds hd, hn]⟩⟩

theorem coordinateText_of (s : String) (sign a b : List Char) (x : Int) (n : Nat)
    (hs : sign = [] ∨ sign = ['+'] ∨ sign = ['-']) (hne : a ++ b ≠ []) (hd : ∀ c ∈ a ++ b, isDigit c = true)
    (ht : s.toList = sign ++ a ++ '.' :: b ∨ (b = [] ∧ s.toList = sign ++ a)) (hn : digitsVal 0 (a ++ b) = n)
    (hv : |(if sign = ['-'] then -1 else 1) * (n : ℚ) / 10 ^ b.length * 10000000 - x| ≤ 1 / 2 - 1 / 1000000) :
    CoordinateText s x :=
  ⟨_, ⟨sign, a, b, [], 0, hs, hne, fun c hc => digit_of (hd c hc), Or.inl ⟨rfl, rfl⟩, by simpa using ht, rfl⟩, by
    rw [Time.decimal_eq _ hd, hn, zpow_zero, mul_one, ← mul_div_assoc]; exact hv⟩

example : DocumentSays meaningEvents "JOSM" meaningItems ∧ objectsOf meaningItems ≠ [] ∧
    ∀ o ∈ objectsOf meaningItems, ObjectFits o := by
  refine ⟨⟨"osmChange", [("generator", "JOSM"), ("upload", "no"), ("version", "0.6")], meaningContent, Or.inr rfl,
    by decide, by decide, by simp [Says, attrOf, List.lookup], ?_, rfl⟩, by simp [meaningItems, objectsOf], ?_⟩
  · unfold meaningContent meaningItems
    refine .other _ "note" _ [] _ [] _ (by simp [KnownTop, IsObjName]) (.nil _) ?_
    refine .bounds _ _ "-.5" "+50" "8" "50.5" ⟨-5000000, 500000000⟩ ⟨80000000, 505000000⟩ _ _ (by decide) rfl ?_ rfl ?_ rfl ?_
      rfl ?_ (by norm_num [Position.WF, InS32])
      (by norm_num [Position.WF, InS32]) ?_
    · exact coordinateText_of _ ['-'] [] ['5'] _ 5 (by simp) (by simp) (by decide) (by decide) rfl (by norm_num)
    · exact coordinateText_of _ ['+'] ['5', '0'] [] _ 50 (by simp) (by simp) (by decide) (by decide) rfl
        (by rw [if_neg (by decide)]; norm_num)
    · exact coordinateText_of _ [] ['8'] [] _ 8 (by simp) (by simp) (by decide) (by decide) rfl (by norm_num)
    · exact coordinateText_of _ [] ['5', '0'] ['5'] _ 505 (by simp) (by simp) (by decide) (by decide) rfl (by norm_num)
    refine .other _ "create" _ [.start "node" _, .start "tag" _, .stop "tag", .start "label" _, .stop "label", .stop "node"]
      _ [.obj _] _ (by simp [KnownTop, IsObjName]) (.object _ (.node _) _
        [.start "tag" _, .stop "tag", .start "label" _, .stop "label"] _ _ ⟨⟨by decide, ?_, ?_, ?_, ?_, ?_, rfl, ?_, rfl⟩, ?_, ?_,
        .tag _ _ _ _ _ _ (by decide) rfl rfl (.other _ _ _ _ _ _ (by simp [KnownChild]) .nil)⟩ (.nil _)) ?_
    · exact integerText_minus _ ['1', '7'] 17 (by decide) (by simp) (by decide) rfl
    · rfl
    · rfl
    · intro cal hcal
      exact (parse_iso_iff cal hcal _ _).mp (by decide +kernel)
    · rfl
    · exact Or.inl ⟨rfl, rfl⟩
    · exact coordinateText_of _ ['-'] ['1'] ['0', '0', '0', '0', '0', '0', '0', '4'] _ 100000004 (by simp) (by simp)
        (by decide) (by decide) rfl (by norm_num [abs_le])
    · exact coordinateText_of _ [] ['5', '0'] ['2', '5'] _ 5025 (by simp) (by simp) (by decide) (by decide) rfl (by norm_num)
    refine .delete _ [.start "way" _, .start "nd" _, .stop "nd", .start "tag" _, .stop "tag", .start "nd" _, .stop "nd",
      .stop "way", .start "relation" _, .start "member" _, .stop "member", .stop "relation"] [] [.obj _, .obj _] [] ?_ (.nil _)
    refine .object _ (.way _) _ [.start "nd" _, .stop "nd", .start "tag" _, .stop "tag", .start "nd" _, .stop "nd"] _ _
      ⟨⟨by decide, ?_, ?_, rfl, rfl, rfl, rfl, rfl, rfl⟩, rfl, rfl, by decide,
        .nd _ "7" _ _ _ _ _ rfl (by decide) rfl ?_ (.tag _ _ _ _ _ _ (by decide) rfl rfl
          (.nd _ "-8" _ _ _ _ _ rfl (by decide) rfl ?_ .nil))⟩ ?_
    · exact integerText_plain _ ['5'] 5 (by decide) (by simp) (by decide) rfl
    · exact integerText_plain _ ['3'] 3 (by decide) (by simp) (by decide) rfl
    · exact integerText_plain _ ['7'] 7 (by decide) (by simp) (by decide) rfl
    · exact integerText_minus _ ['8'] 8 (by decide) (by simp) (by decide) rfl
    refine .object _ (.relation _) _ [.start "member" _, .stop "member"] _ _
      ⟨⟨by decide, ?_, rfl, rfl, rfl, rfl, rfl, rfl, rfl⟩, rfl, rfl,
        .member _ _ _ _ _ _ rfl (by decide) (Or.inr (Or.inl ⟨rfl, rfl⟩)) ?_ rfl .nil⟩ (.nil _)
    · exact integerText_plain _ ['1'] 1 (by decide) (by simp) (by decide) rfl
    · exact integerText_plain _ ['5'] 5 (by decide) (by simp) (by decide) rfl
  · simp [meaningItems, objectsOf, ObjectFits, OsmObj.obj, Obj.new, InS32, InS64, InU32]
    decide

example : attrOf [("generator", "x"), ("version", "0.5")] "version" = some "0.5" := rfl

end Osmium
