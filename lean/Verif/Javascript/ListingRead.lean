import Verif.Javascript.ListingProps

/-
C115: the objects can be read off what objects.js and objects_2pass.js print.
-/
namespace Osmium
open Spec Text

namespace Spec

/-- Texts without newlines, keys without `=`, and a time that is unset or in the years 0 to 9999. -/
structure ClearAttrs (o : Obj) : Prop where
  user : OneLine o.user
  tags : ∀ t ∈ o.tags, OneLine t.key ∧ OneLine t.value ∧ '=' ∉ t.key.toList
  time : TimeOk o.timestamp

/-- What can be read again: in addition no `=` in roles. (specification, no counterpart in /repo) -/
def ClearCall : WholeCall → Prop
  | .call (.obj (.node n)) => ClearAttrs n.obj ∧ n.position.WF
  | .call (.obj (.way w)) => ClearAttrs w.obj ∧ NodesWF w.nodes
  | .call (.obj (.relation r)) => ClearAttrs r.obj ∧ ∀ m ∈ r.members, OneLine m.role ∧ '=' ∉ m.role.toList
  | .area a _ => ClearAttrs a.obj
  | _ => True

/-- Calls for which the scripts have a callback that prints. (specification, no counterpart in /repo) -/
def isShown : WholeCall → Bool
  | .call (.init _) => true
  | .call .final => true
  | .call (.obj _) => true
  | .area _ _ => true
  | _ => false

/-- The same attributes and tags. (specification, no counterpart in /repo) -/
def SameAttrs (o o' : Obj) : Prop :=
  o.id = o'.id ∧ o.version = o'.version ∧ o.timestamp = o'.timestamp ∧ o.uid = o'.uid ∧ o.user = o'.user ∧
  o.changeset = o'.changeset ∧ o.tags = o'.tags

/-- Objects that agree in all that matters: attributes, tags, the position of a node, the nodes of a way, with their
positions if the last one has a position, and the members of a relation; all but the user of an area. (specification,
no counterpart in /repo) -/
def SameShown : WholeCall → WholeCall → Prop
  | .call (.init _), .call (.init _) => True
  | .call .final, .call .final => True
  | .call (.obj (.node n)), .call (.obj (.node n')) => SameAttrs n.obj n'.obj ∧ n.position = n'.position
  | .call (.obj (.way w)), .call (.obj (.way w')) => SameAttrs w.obj w'.obj ∧
      w.nodes.map (·.ref) = w'.nodes.map (·.ref) ∧ wayNodesHasPosition w.nodes = wayNodesHasPosition w'.nodes ∧
      (wayNodesHasPosition w.nodes = true → w.nodes.map (·.position) = w'.nodes.map (·.position))
  | .call (.obj (.relation r)), .call (.obj (.relation r')) => SameAttrs r.obj r'.obj ∧ r.members = r'.members
  | .area a _, .area a' _ => SameAttrs { a.obj with user := "" } { a'.obj with user := "" }
  | _, _ => False

end Spec

/-! ### Splitting texts -/

theorem last_sep_inj (c : Char) {x y r s : List Char} (hx : c ∉ x) (hy : c ∉ y)
    (e : r ++ c :: x = s ++ c :: y) : r = s ∧ x = y := by
  have e' := congrArg List.reverse e
  simp only [List.reverse_append, List.reverse_cons, List.append_assoc, List.singleton_append] at e'
  obtain ⟨h1, h2⟩ := sep_inj c (by simpa using hx) (by simpa using hy) e'
  exact ⟨List.reverse_injective h2, List.reverse_injective h1⟩

/-- Two lists are cut at the first element that does not have a property. -/
theorem cut_inj {β : Type} {P : β → Prop} : ∀ {x y r s : List β}, (∀ d ∈ x, P d) → (∀ d ∈ y, P d) →
    (∀ d ∈ r.head?, ¬ P d) → (∀ d ∈ s.head?, ¬ P d) → x ++ r = y ++ s → x = y ∧ r = s := by
  intro x
  induction x with
  | nil =>
    intro y r s _ hy hr hs e
    cases y with
    | nil => exact ⟨rfl, e⟩
    | cons d y =>
      rw [List.nil_append] at e
      subst e
      exact absurd (hy d List.mem_cons_self) (hr d rfl)
  | cons d x ih =>
    intro y r s hx hy hr hs e
    cases y with
    | nil =>
      rw [List.nil_append] at e
      subst e
      exact absurd (hx d List.mem_cons_self) (hs d rfl)
    | cons d' y =>
      simp only [List.cons_append, List.cons.injEq] at e
      obtain ⟨h1, h2⟩ := ih (fun d h => hx d (List.mem_cons_of_mem _ h)) (fun d h => hy d (List.mem_cons_of_mem _ h)) hr hs e.2
      exact ⟨by rw [e.1, h1], h2⟩

/-- A line that does not begin with a space, followed by lines that do. (helper for statements and proofs, no
counterpart in /repo) -/
def IsBlock (x : List Char × List (List Char)) : Prop := x.1.head? ≠ some ' ' ∧ ∀ d ∈ x.2, d.head? = some ' '

theorem blocks_inj : ∀ {a b : List (List Char × List (List Char))}, (∀ x ∈ a, IsBlock x) → (∀ x ∈ b, IsBlock x) →
    a.flatMap (fun x => x.1 :: x.2) = b.flatMap (fun x => x.1 :: x.2) → a = b := by
  intro a
  have hh : ∀ l : List (List Char × List (List Char)), (∀ x ∈ l, IsBlock x) →
      ∀ d ∈ (l.flatMap fun x => x.1 :: x.2).head?, ¬ d.head? = some ' ' := by
    intro l hl d hd
    cases l with
    | nil => simp at hd
    | cons x l =>
      simp only [List.flatMap_cons, List.cons_append, List.head?_cons, Option.mem_def, Option.some.injEq] at hd
      subst hd
      exact (hl x List.mem_cons_self).1
  induction a with
  | nil =>
    intro b _ _ e
    cases b with
    | nil => rfl
    | cons y b => simp at e
  | cons x a ih =>
    intro b ha hb e
    cases b with
    | nil => simp at e
    | cons y b =>
      simp only [List.flatMap_cons, List.cons_append, List.cons.injEq] at e
      have ta : ∀ x ∈ a, IsBlock x := fun x h => ha x (List.mem_cons_of_mem _ h)
      have tb : ∀ x ∈ b, IsBlock x := fun x h => hb x (List.mem_cons_of_mem _ h)
      obtain ⟨h1, h2⟩ := cut_inj (P := fun d : List Char => d.head? = some ' ') (ha x List.mem_cons_self).2
        (hb y List.mem_cons_self).2 (hh a ta) (hh b tb) e.2
      rw [ih ta tb h2, Prod.ext e.1 h1]

theorem hexDigit_inj {a b : Nat} (ha : a < 16) (hb : b < 16) (h : Spec.hexDigit a = Spec.hexDigit b) : a = b := by
  have key : ∀ a b : Fin 16, Spec.hexDigit a = Spec.hexDigit b → a = b := by decide +kernel
  exact congrArg Fin.val (key ⟨a, ha⟩ ⟨b, hb⟩ h)

theorem hexDump_inj : ∀ {a b : List UInt8}, hexDump a = hexDump b → a = b := by
  intro a
  induction a with
  | nil =>
    intro b h
    cases b with
    | nil => rfl
    | cons y b => simp [hexDump] at h
  | cons x a ih =>
    intro b h
    cases b with
    | nil => simp [hexDump] at h
    | cons y b =>
      simp only [hexDump, List.flatMap_cons, List.cons_append, List.nil_append, List.cons.injEq] at h
      have x1 := x.toNat_lt
      have y1 := y.toNat_lt
      have h1 := hexDigit_inj (by omega) (by omega) h.1
      have h2 := hexDigit_inj (by omega) (by omega) h.2.1
      rw [ih h.2.2, UInt8.toNat.inj (show x.toNat = y.toNat by omega)]

theorem hexDump_chars (s : List UInt8) : ' ' ∉ hexDump s := by
  intro h
  unfold hexDump at h
  obtain ⟨b, -, hb⟩ := List.mem_flatMap.1 h
  have key : ∀ a : Fin 16, ' ' ≠ Spec.hexDigit a := by decide +kernel
  have b1 := b.toNat_lt
  simp only [List.mem_cons, List.not_mem_nil, or_false] at hb
  rcases hb with hb | hb
  · exact key ⟨b.toNat / 16, by omega⟩ hb
  · exact key ⟨b.toNat % 16, by omega⟩ hb

theorem hexDump_no_newline (s : List UInt8) : '\n' ∉ hexDump s := by
  intro h
  unfold hexDump at h
  obtain ⟨b, -, hb⟩ := List.mem_flatMap.1 h
  have key : ∀ a : Fin 16, '\n' ≠ Spec.hexDigit a := by decide +kernel
  have b1 := b.toNat_lt
  simp only [List.mem_cons, List.not_mem_nil, or_false] at hb
  rcases hb with hb | hb
  · exact key ⟨b.toNat / 16, by omega⟩ hb
  · exact key ⟨b.toNat % 16, by omega⟩ hb

theorem pointWkb_inj {p q : Position} (hp : p.WF) (hq : q.WF) (h : pointWkb p false = pointWkb q false) : p = q := by
  have e1 := point_wkb_decodes p hp false
  have e2 := point_wkb_decodes q hq false
  rw [h, e2] at e1
  simp only [Option.some.injEq, Prod.mk.injEq, true_and, xy, GeoValue.point.injEq] at e1
  obtain ⟨h1, h2⟩ := e1
  have k1 := fix_double_fix p.x hp.1
  have k2 := fix_double_fix p.y hp.2
  rw [← h1, fix_double_fix q.x hq.1] at k1
  rw [← h2, fix_double_fix q.y hq.2] at k2
  cases p; cases q
  simp_all

theorem lineWkt_inj {w w' : Way} (h1 : NodesWF w.nodes) (h2 : NodesWF w'.nodes) (n1 : w.nodes ≠ []) (n2 : w'.nodes ≠ [])
    (h : lineWkt (LineString.new w.nodes false w.obj.id) false = lineWkt (LineString.new w'.nodes false w'.obj.id) false) :
    w.nodes.map (·.position) = w'.nodes.map (·.position) := by
  have e1 := line_wkt_decodes (LineString.new w.nodes false w.obj.id) h1 n1 false
  have e2 := line_wkt_decodes (LineString.new w'.nodes false w'.obj.id) h2 n2 false
  rw [h, e2] at e1
  simp only [Option.some.injEq, Prod.mk.injEq, true_and, GeoValue.line.injEq] at e1
  have e3 : (w'.nodes.map (·.position)).map degrees = (w.nodes.map (·.position)).map degrees := e1
  refine (map_inj_on (P := fun _ => True) (f := degrees) ?_ (fun _ _ => trivial) (fun _ _ => trivial) e3).symm
  intro p q _ _ hd
  simp only [degrees, Prod.mk.injEq] at hd
  have a1 : (p.x : ℚ) = q.x := by linarith [hd.1]
  have a2 : (p.y : ℚ) = q.y := by linarith [hd.2]
  cases p; cases q
  simp only [Position.mk.injEq]
  exact ⟨by exact_mod_cast a1, by exact_mod_cast a2⟩

/-! ### The lines -/

theorem intDec_no {c : Char} (hc : isDigit c = false) (hm : c ≠ '-') (n : Int) : c ∉ intDec n := by
  intro h
  rcases intDec_chars n c h with h | h
  · rw [hc] at h; cases h
  · exact hm h

theorem toIso_no {c : Char} (hc : isDigit c = false) (h1 : c ≠ '-') (h2 : c ≠ 'T') (h3 : c ≠ ':') (h4 : c ≠ 'Z') (t : Int) :
    c ∉ Time.toIso t := by
  intro h
  rcases toIso_chars t c h with h | h | h | h | h
  · rw [hc] at h; cases h
  · exact h1 h
  · exact h2 h
  · exact h3 h
  · exact h4 h

/-- The attributes before the user can be split off. -/
theorem attrs_left {o o' : Obj} (ho : TimeOk o.timestamp) (ho' : TimeOk o'.timestamp) {r r' : List Char}
    (h : intDec o.id ++ ' ' :: (intDec o.version ++ ' ' :: (Time.toIso o.timestamp ++ ' ' :: (intDec o.uid ++ ' ' :: r))) =
      intDec o'.id ++ ' ' :: (intDec o'.version ++ ' ' :: (Time.toIso o'.timestamp ++ ' ' :: (intDec o'.uid ++ ' ' :: r')))) :
    o.id = o'.id ∧ o.version = o'.version ∧ o.timestamp = o'.timestamp ∧ o.uid = o'.uid ∧ r = r' := by
  have ni := intDec_no (c := ' ') (by decide) (by decide)
  have nt := toIso_no (c := ' ') (by decide) (by decide) (by decide) (by decide) (by decide)
  obtain ⟨h1, h⟩ := sep_inj ' ' (ni _) (ni _) h
  obtain ⟨h2, h⟩ := sep_inj ' ' (ni _) (ni _) h
  obtain ⟨h3, h⟩ := sep_inj ' ' (nt _) (nt _) h
  obtain ⟨h4, h⟩ := sep_inj ' ' (ni _) (ni _) h
  exact ⟨intDec_inj h1, intDec_inj h2, toIso_inj ho ho' h3, intDec_inj h4, h⟩

theorem user_changeset {u u' : String} {c c' : Int} (h : u.toList ++ ' ' :: intDec c = u'.toList ++ ' ' :: intDec c') :
    u = u' ∧ c = c' := by
  have ni := intDec_no (c := ' ') (by decide) (by decide)
  obtain ⟨h1, h2⟩ := last_sep_inj ' ' (ni _) (ni _) h
  exact ⟨String.toList_injective h1, intDec_inj h2⟩

theorem tagLine_has (t : Tag) : '=' ∈ ' ' :: t.key.toList ++ '=' :: t.value.toList := by simp

theorem tagLines_inj {a b : TagList} (ha : ∀ t ∈ a, '=' ∉ t.key.toList) (hb : ∀ t ∈ b, '=' ∉ t.key.toList)
    (h : tagLines a = tagLines b) : a = b := by
  refine map_inj_on (P := fun t : Tag => '=' ∉ t.key.toList) ?_ ha hb h
  intro s t hs ht e
  obtain ⟨h1, h2⟩ := sep_inj '=' (x := ' ' :: s.key.toList) (y := ' ' :: t.key.toList)
    (by simpa using hs) (by simpa using ht) e
  cases s; cases t
  simp only [List.cons.injEq, true_and] at h1
  simp only [Tag.mk.injEq]
  exact ⟨String.toList_injective h1, String.toList_injective h2⟩

theorem details_inj {a b : TagList} (ha : ∀ t ∈ a, '=' ∉ t.key.toList) (hb : ∀ t ∈ b, '=' ∉ t.key.toList)
    {x y : List (List Char)} (hx : ∀ l ∈ x, '=' ∉ l) (hy : ∀ l ∈ y, '=' ∉ l)
    (h : tagLines a ++ x = tagLines b ++ y) : a = b ∧ x = y := by
  have ht : ∀ tags : TagList, ∀ l ∈ tagLines tags, '=' ∈ l := by
    intro tags l hl
    obtain ⟨t, -, rfl⟩ := List.mem_map.1 hl
    exact tagLine_has t
  obtain ⟨h1, h2⟩ := cut_inj (P := fun l : List Char => '=' ∈ l) (ht a) (ht b)
    (fun d hd => hx d (List.mem_of_mem_head? hd)) (fun d hd => hy d (List.mem_of_mem_head? hd)) h
  exact ⟨tagLines_inj ha hb h1, h2⟩

theorem refLines_inj {a b : List WayNode}
    (h : (a.map fun n => " ref ".toList ++ intDec n.ref) = b.map fun n => " ref ".toList ++ intDec n.ref) :
    a.map (·.ref) = b.map (·.ref) := by
  have e : ∀ l : List WayNode, (l.map fun n => " ref ".toList ++ intDec n.ref) =
      (l.map (·.ref)).map fun r => " ref ".toList ++ intDec r := by
    intro l; rw [List.map_map]; rfl
  rw [e, e] at h
  refine map_inj_on (P := fun _ => True) ?_ (fun _ _ => trivial) (fun _ _ => trivial) h
  intro x y _ _ hxy
  exact intDec_inj (List.append_cancel_left hxy)

theorem memberLines_inj {a b : List Member}
    (h : (a.map fun m => ' ' :: spacedText ["member".toList, [m.type], intDec m.ref, m.role.toList]) =
      b.map fun m => ' ' :: spacedText ["member".toList, [m.type], intDec m.ref, m.role.toList]) : a = b := by
  refine map_inj_on (P := fun _ => True) ?_ (fun _ _ => trivial) (fun _ _ => trivial) h
  intro x y _ _ hxy
  simp only [spacedText, List.cons.injEq, true_and, List.append_cancel_left_eq, List.cons_append, List.nil_append] at hxy
  obtain ⟨h1, h2⟩ := hxy
  have ni := intDec_no (c := ' ') (by decide) (by decide)
  obtain ⟨h3, h4⟩ := sep_inj ' ' (ni _) (ni _) h2
  cases x; cases y
  simp only [Member.mk.injEq]
  exact ⟨h1, intDec_inj h3, String.toList_injective h4⟩

/-- The text for the line of a way. (helper for statements and proofs, no counterpart in /repo) -/
def lineShown (w : Way) : List Char :=
  if wayNodesHasPosition w.nodes then lineWkt (LineString.new w.nodes false w.obj.id) false else "undefined".toList

theorem lineWkt_form (g : FromWay) : ∃ body, lineWkt g false = "LINESTRING".toList ++ '(' :: (body ++ [')']) ∧
    ∀ c ∈ body, c ≠ '(' ∧ c ≠ '\n' := by
  refine ⟨(((inDirection g.reverse g.nodes).map lonLatText).intersperse [',']).flatten, ?_, ?_⟩
  · rw [(wkt_text ⟨0, 0⟩ g false).2.1]
    simp
  · intro c h
    obtain ⟨l, hl, hc⟩ := List.mem_flatten.1 h
    have hf : ∀ q, c ∈ fmtG10 q → c ≠ '(' ∧ c ≠ '\n' := by
      intro q hq
      have := fmtG10_chars q c hq
      constructor <;> (rintro rfl; revert this; decide)
    have : l = [','] ∨ l ∈ (inDirection g.reverse g.nodes).map lonLatText := by
      have gen : ∀ (x : List (List Char)), l ∈ x.intersperse [','] → l = [','] ∨ l ∈ x := by
        intro x
        induction x with
        | nil => intro h; simp at h
        | cons a x ih =>
          cases x with
          | nil => intro h; exact .inr h
          | cons b x =>
            intro h
            simp only [List.intersperse, List.mem_cons] at h
            rcases h with h | h | h
            · exact .inr (by simp [h])
            · exact .inl h
            · rcases ih h with h | h
              · exact .inl h
              · exact .inr (List.mem_cons_of_mem _ h)
      exact gen _ hl
    rcases this with rfl | h
    · rw [List.mem_singleton.1 hc]; decide
    · obtain ⟨p, -, rfl⟩ := List.mem_map.1 h
      unfold lonLatText at hc
      rcases List.mem_append.1 hc with hc | hc
      · exact hf _ hc
      · rcases List.mem_cons.1 hc with hc | hc
        · rw [hc]; decide
        · exact hf _ hc

theorem wkt_no_newline (p : Position) (g : FromWay) : '\n' ∉ pointWkt p false ∧ '\n' ∉ lineWkt g false := by
  constructor
  · intro h
    rw [(wkt_text p g false).1] at h
    have hf : ∀ q, '\n' ∉ fmtG10 q := by
      intro q hq
      have := fmtG10_chars q _ hq
      revert this; decide
    simp only [lonLatText, List.mem_append, List.mem_cons, List.not_mem_nil, or_false] at h
    rcases h with ((h | h) | h | h | h) | h
    · revert h; decide
    · revert h; decide +kernel
    · exact hf _ h
    · revert h; decide
    · exact hf _ h
    · revert h; decide
  · obtain ⟨body, e, hb⟩ := lineWkt_form g
    rw [e]
    intro h
    simp only [List.mem_append, List.mem_cons, List.not_mem_nil, or_false] at h
    rcases h with h | h | h | h
    · revert h; decide +kernel
    · revert h; decide
    · exact (hb _ h).2 rfl
    · revert h; decide

theorem way_right {u u' : String} {c c' : Int} {w w' : Way}
    (h : u.toList ++ ' ' :: (intDec c ++ ' ' :: lineShown w) = u'.toList ++ ' ' :: (intDec c' ++ ' ' :: lineShown w')) :
    u = u' ∧ c = c' ∧ wayNodesHasPosition w.nodes = wayNodesHasPosition w'.nodes ∧ lineShown w = lineShown w' := by
  have hu : "undefined".toList = "undefine".toList ++ ['d'] := by decide +kernel
  have mixed : ∀ (a b : List Char) (g : FromWay), a ++ lineWkt g false ≠ b ++ "undefined".toList := by
    intro a b g e
    obtain ⟨body, e1, -⟩ := lineWkt_form g
    rw [e1, hu, ← List.cons_append, ← List.append_assoc, ← List.append_assoc, ← List.append_assoc] at e
    have := List.append_inj_right' e rfl
    revert this; decide
  have asc : ∀ (u : String) (c : Int) (t : List Char), u.toList ++ ' ' :: (intDec c ++ ' ' :: t) =
      (u.toList ++ ' ' :: (intDec c ++ [' '])) ++ t := by
    intro u c t; simp
  unfold lineShown at h ⊢
  cases h1 : wayNodesHasPosition w.nodes <;> cases h2 : wayNodesHasPosition w'.nodes <;>
    simp only [h1, h2, if_true, Bool.false_eq_true, if_false] at h ⊢
  · rw [asc u c, asc u' c'] at h
    have h3 := List.append_cancel_right h
    rw [← List.cons_append, ← List.cons_append, ← List.append_assoc, ← List.append_assoc] at h3
    obtain ⟨a, b⟩ := user_changeset (List.append_cancel_right h3)
    exact ⟨a, b, trivial, trivial⟩
  · rw [asc u c, asc u' c'] at h
    exact absurd h.symm (mixed _ _ _)
  · rw [asc u c, asc u' c'] at h
    exact absurd h (mixed _ _ _)
  · obtain ⟨b, e, hb⟩ := lineWkt_form (LineString.new w.nodes false w.obj.id)
    obtain ⟨b', e', hb'⟩ := lineWkt_form (LineString.new w'.nodes false w'.obj.id)
    rw [asc u c, asc u' c', e, e', ← List.append_assoc, ← List.append_assoc] at h
    have np : ∀ {b : List Char}, (∀ c ∈ b, c ≠ '(' ∧ c ≠ '\n') → '(' ∉ b ++ [')'] := by
      intro b hb h
      rcases List.mem_append.1 h with h | h
      · exact (hb _ h).1 rfl
      · revert h; decide
    obtain ⟨h3, h4⟩ := last_sep_inj '(' (np hb) (np hb') h
    have h3 := List.append_cancel_right h3
    rw [← List.cons_append, ← List.cons_append, ← List.append_assoc, ← List.append_assoc] at h3
    obtain ⟨a, b⟩ := user_changeset (List.append_cancel_right h3)
    exact ⟨a, b, trivial, by rw [e, e', h4]⟩

theorem node_right {num : ℚ → List Char} {u u' : String} {c c' : Int} {p p' : Position} (hp : p.WF) (hp' : p'.WF)
    (h : u.toList ++ ' ' :: (intDec c ++ ' ' :: (num (xy p).1 ++ ' ' :: (num (xy p).2 ++ ' ' :: (pointWkt p false ++
        ' ' :: ('[' :: hexDump (pointWkb p false) ++ [']']))))) =
      u'.toList ++ ' ' :: (intDec c' ++ ' ' :: (num (xy p').1 ++ ' ' :: (num (xy p').2 ++ ' ' :: (pointWkt p' false ++
        ' ' :: ('[' :: hexDump (pointWkb p' false) ++ [']'])))))) :
    u = u' ∧ c = c' ∧ p = p' := by
  have asc : ∀ (u : String) (c : Int) (a b d e : List Char), u.toList ++ ' ' :: (intDec c ++ ' ' :: (a ++ ' ' :: (b ++ ' ' :: (d ++
      ' ' :: e)))) = (u.toList ++ ' ' :: (intDec c ++ ' ' :: (a ++ ' ' :: (b ++ ' ' :: d)))) ++ ' ' :: e := by
    intro u c a b d e; simp
  have asc' : ∀ (u : String) (c : Int) (a b d : List Char), u.toList ++ ' ' :: (intDec c ++ ' ' :: (a ++ ' ' :: (b ++ ' ' :: d))) =
      (u.toList ++ ' ' :: intDec c) ++ ' ' :: (a ++ ' ' :: (b ++ ' ' :: d)) := by
    intro u c a b d; simp
  have ns : ∀ s, ' ' ∉ '[' :: hexDump s ++ [']'] := by
    intro s
    have := hexDump_chars s
    simp only [List.cons_append, List.mem_cons, List.mem_append, List.not_mem_nil, or_false, not_or]
    exact ⟨by decide, this, by decide⟩
  rw [asc, asc] at h
  obtain ⟨h1, h2⟩ := last_sep_inj ' ' (ns _) (ns _) h
  have h3 : hexDump (pointWkb p false) = hexDump (pointWkb p' false) := by
    simp only [List.cons_append, List.cons.injEq, true_and] at h2
    exact List.append_cancel_right h2
  have h4 := pointWkb_inj hp hp' (hexDump_inj h3)
  subst h4
  rw [asc', asc'] at h1
  obtain ⟨a, b⟩ := user_changeset (List.append_cancel_right h1)
  exact ⟨a, b, rfl⟩

/-! ### The calls -/

/-- The first line for a call, and the others. (helper for statements and proofs, no counterpart in /repo) -/
def callBlock (num : ℚ → List Char) : WholeCall → List Char × List (List Char)
  | .call (.init _) => ("Start!".toList, [])
  | .call .final => ("End!".toList, [])
  | .call (.obj o) => (objectLine num o, tagLines (objTags o) ++ partLines o)
  | .area a _ => (areaLine a, tagLines a.obj.tags)
  | _ => ([], [])

theorem callLines_blocks (num : ℚ → List Char) (cs : List WholeCall) :
    cs.flatMap (callLines num) = ((cs.filter isShown).map (callBlock num)).flatMap fun x => x.1 :: x.2 := by
  induction cs with
  | nil => rfl
  | cons c cs ih =>
    have h : callLines num c = if isShown c then (callBlock num c).1 :: (callBlock num c).2 else [] := by
      match c with
      | .call (.init _) => rfl
      | .call .final => rfl
      | .call (.obj _) => rfl
      | .area _ _ => rfl
      | .call (.before _) => rfl
      | .call (.after _) => rfl
    rw [List.flatMap_cons, ih, h]
    cases hs : isShown c <;> simp [hs]

theorem spacedText_head (a : Char) (t : List Char) (ts : List (List Char)) :
    (spacedText ((a :: t) :: ts)).head? = some a := by
  cases ts <;> rfl

theorem objectLine_head (num : ℚ → List Char) (o : OsmObj) : (objectLine num o).head? = some (match o with
    | .node _ => 'n' | .way _ => 'w' | .relation _ => 'r') := by
  cases o with
  | node n =>
    rw [objectLine, show "node".toList = 'n' :: "ode".toList from rfl, List.cons_append, spacedText_head]
  | way w =>
    rw [objectLine, show "way".toList = 'w' :: "ay".toList from rfl, List.cons_append, spacedText_head]
  | relation r =>
    rw [objectLine, show "relation".toList = 'r' :: "elation".toList from rfl, spacedText_head]

theorem areaLine_head (a : Area) : (areaLine a).head? = some 'a' := by
  rw [areaLine, show "area".toList = 'a' :: "rea".toList from rfl, spacedText_head]

theorem callBlock_block (num : ℚ → List Char) {c : WholeCall} (hs : isShown c = true) : IsBlock (callBlock num c) := by
  have ht : ∀ tags : TagList, ∀ d ∈ tagLines tags, d.head? = some ' ' := by
    intro tags d hd
    obtain ⟨t, -, rfl⟩ := List.mem_map.1 hd
    rfl
  match c, hs with
  | .call (.init _), _ => exact ⟨show "Start!".toList.head? ≠ some ' ' by decide +kernel, by simp [callBlock]⟩
  | .call .final, _ => exact ⟨show "End!".toList.head? ≠ some ' ' by decide +kernel, by simp [callBlock]⟩
  | .area a _, _ => exact ⟨by simp [callBlock, areaLine_head], ht _⟩
  | .call (.obj o), _ =>
    refine ⟨?_, ?_⟩
    · simp only [callBlock, objectLine_head]
      cases o <;> simp
    · intro d hd
      rcases List.mem_append.1 hd with hd | hd
      · exact ht _ d hd
      · cases o with
        | node n => simp [partLines] at hd
        | way w => obtain ⟨n, -, rfl⟩ := List.mem_map.1 hd; rfl
        | relation r => obtain ⟨m, -, rfl⟩ := List.mem_map.1 hd; rfl

/-- The first character for a call. (helper for statements and proofs, no counterpart in /repo) -/
def callKind : WholeCall → Char
  | .call (.init _) => 'S'
  | .call .final => 'E'
  | .call (.obj (.node _)) => 'n'
  | .call (.obj (.way _)) => 'w'
  | .call (.obj (.relation _)) => 'r'
  | .area _ _ => 'a'
  | _ => ' '

theorem callBlock_kind (num : ℚ → List Char) {c : WholeCall} (hs : isShown c = true) :
    (callBlock num c).1.head? = some (callKind c) := by
  match c, hs with
  | .call (.init _), _ => rfl
  | .call .final, _ => rfl
  | .area a _, _ => exact areaLine_head a
  | .call (.obj (.node n)), _ => exact objectLine_head num (.node n)
  | .call (.obj (.way n)), _ => exact objectLine_head num (.way n)
  | .call (.obj (.relation n)), _ => exact objectLine_head num (.relation n)

theorem node_inj {num : ℚ → List Char} {n n' : Node} (hc : ClearAttrs n.obj) (hc' : ClearAttrs n'.obj)
    (hp : n.position.WF) (hp' : n'.position.WF)
    (h : callBlock num (.call (.obj (.node n))) = callBlock num (.call (.obj (.node n')))) :
    SameAttrs n.obj n'.obj ∧ n.position = n'.position := by
  obtain ⟨h1, h2⟩ := Prod.mk.inj h
  obtain ⟨ht, -⟩ := details_inj (fun t m => (hc.tags t m).2.2) (fun t m => (hc'.tags t m).2.2)
    (by simp [partLines]) (by simp [partLines]) h2
  simp only [objectLine, spacedText, attrTexts, List.cons_append, List.nil_append] at h1
  obtain ⟨-, h1⟩ := sep_inj ' ' (by decide +kernel) (by decide +kernel) h1
  obtain ⟨a1, a2, a3, a4, h1⟩ := attrs_left hc.time hc'.time h1
  obtain ⟨a5, a6, a7⟩ := node_right (num := num) hp hp' h1
  exact ⟨⟨a1, a2, a3, a4, a5, a6, ht⟩, a7⟩

theorem way_inj {num : ℚ → List Char} {w w' : Way} (hc : ClearAttrs w.obj) (hc' : ClearAttrs w'.obj)
    (hp : NodesWF w.nodes) (hp' : NodesWF w'.nodes)
    (h : callBlock num (.call (.obj (.way w))) = callBlock num (.call (.obj (.way w')))) :
    SameAttrs w.obj w'.obj ∧ w.nodes.map (·.ref) = w'.nodes.map (·.ref) ∧
      wayNodesHasPosition w.nodes = wayNodesHasPosition w'.nodes ∧
      (wayNodesHasPosition w.nodes = true → w.nodes.map (·.position) = w'.nodes.map (·.position)) := by
  obtain ⟨h1, h2⟩ := Prod.mk.inj h
  have nr : ∀ w : Way, ∀ l ∈ partLines (.way w), '=' ∉ l := by
    intro w l hl
    obtain ⟨n, -, rfl⟩ := List.mem_map.1 hl
    simp only [List.mem_append, not_or]
    exact ⟨by decide +kernel, intDec_no (by decide) (by decide) _⟩
  obtain ⟨ht, hr⟩ := details_inj (fun t m => (hc.tags t m).2.2) (fun t m => (hc'.tags t m).2.2) (nr w) (nr w') h2
  simp only [objectLine, spacedText, attrTexts, List.cons_append, List.nil_append] at h1
  obtain ⟨-, h1⟩ := sep_inj ' ' (by decide +kernel) (by decide +kernel) h1
  obtain ⟨a1, a2, a3, a4, h1⟩ := attrs_left hc.time hc'.time h1
  obtain ⟨a5, a6, a7, a8⟩ := way_right (w := w) (w' := w') h1
  refine ⟨⟨a1, a2, a3, a4, a5, a6, ht⟩, refLines_inj hr, a7, fun hw => ?_⟩
  have hne : ∀ w : Way, wayNodesHasPosition w.nodes = true → w.nodes ≠ [] := by
    intro w h e
    rw [e] at h
    cases h
  have hw' := a7 ▸ hw
  unfold lineShown at a8
  rw [if_pos hw, if_pos hw'] at a8
  exact lineWkt_inj hp hp' (hne w hw) (hne w' hw') a8

theorem relation_inj {num : ℚ → List Char} {r r' : Relation} (hp : PlainObject num (.relation r))
    (hp' : PlainObject num (.relation r')) (hc : ClearAttrs r.obj) (hc' : ClearAttrs r'.obj)
    (hm : ∀ m ∈ r.members, '=' ∉ m.role.toList) (hm' : ∀ m ∈ r'.members, '=' ∉ m.role.toList)
    (h : callBlock num (.call (.obj (.relation r))) = callBlock num (.call (.obj (.relation r')))) :
    SameAttrs r.obj r'.obj ∧ r.members = r'.members := by
  obtain ⟨h1, h2⟩ := Prod.mk.inj h
  have nr : ∀ r : Relation, PlainObject num (.relation r) → (∀ m ∈ r.members, '=' ∉ m.role.toList) →
      ∀ l ∈ partLines (.relation r), '=' ∉ l := by
    intro r hp hm l hl
    obtain ⟨m, hmem, rfl⟩ := List.mem_map.1 hl
    intro hc
    rcases List.mem_cons.1 hc with hc | hc
    · revert hc; decide
    rcases mem_spacedText hc with hc | ⟨t, ht, hc⟩
    · revert hc; decide
    simp only [List.mem_cons, List.not_mem_nil, or_false] at ht
    rcases ht with rfl | rfl | rfl | rfl
    · revert hc; decide +kernel
    · rcases (hp.2.2.2 m hmem).1 with e | e | e <;> rw [e] at hc <;> revert hc <;> decide
    · exact intDec_no (by decide) (by decide) _ hc
    · exact hm m hmem hc
  obtain ⟨ht, hr⟩ := details_inj (fun t m => (hc.tags t m).2.2) (fun t m => (hc'.tags t m).2.2)
    (nr r hp hm) (nr r' hp' hm') h2
  simp only [objectLine, spacedText, attrTexts] at h1
  obtain ⟨-, h1⟩ := sep_inj ' ' (by decide +kernel) (by decide +kernel) h1
  obtain ⟨a1, a2, a3, a4, h1⟩ := attrs_left hc.time hc'.time h1
  obtain ⟨a5, a6⟩ := user_changeset h1
  exact ⟨⟨a1, a2, a3, a4, a5, a6, ht⟩, memberLines_inj hr⟩

theorem area_inj {num : ℚ → List Char} {a a' : Area} {g g' : Option Geom} (hc : ClearAttrs a.obj) (hc' : ClearAttrs a'.obj)
    (h : callBlock num (.area a g) = callBlock num (.area a' g')) :
    SameAttrs { a.obj with user := "" } { a'.obj with user := "" } := by
  obtain ⟨h1, h2⟩ := Prod.mk.inj h
  have ht := tagLines_inj (fun t m => (hc.tags t m).2.2) (fun t m => (hc'.tags t m).2.2) h2
  simp only [areaLine, spacedText] at h1
  obtain ⟨-, h1⟩ := sep_inj ' ' (by decide +kernel) (by decide +kernel) h1
  obtain ⟨-, h1⟩ := sep_inj ' ' (by decide +kernel) (by decide +kernel) h1
  have nf : ∀ b : Bool, ' ' ∉ (if b = true then "way".toList else "relation".toList) := by decide +kernel
  obtain ⟨-, h1⟩ := sep_inj ' ' (nf _) (nf _) h1
  obtain ⟨a1, a2, a3, a4, h1⟩ := attrs_left hc.time hc'.time h1
  exact ⟨a1, a2, a3, a4, rfl, intDec_inj h1, ht⟩

theorem call_inj {num : ℚ → List Char} {c c' : WholeCall} (hp : PlainCall num c) (hp' : PlainCall num c')
    (hc : ClearCall c) (hc' : ClearCall c') (hs : isShown c = true) (hs' : isShown c' = true)
    (h : callBlock num c = callBlock num c') : SameShown c c' := by
  have hk : callKind c = callKind c' := by
    have e := callBlock_kind num hs
    rw [h, callBlock_kind num hs'] at e
    exact (Option.some.inj e).symm
  rcases c with ⟨a, g⟩ | (m | t | (n | w | r) | t | _) <;> rcases c' with ⟨a', g'⟩ | (m' | t' | (n' | w' | r') | t' | _) <;>
    first
    | (exfalso; revert hk; simp only [callKind]; decide)
    | (exfalso; revert hs; simp only [isShown]; decide)
    | trivial
    | skip
  · exact area_inj hc hc' h
  · exact node_inj hc.1 hc'.1 hc.2 hc'.2 h
  · exact way_inj hc.1 hc'.1 hc.2 hc'.2 h
  · exact relation_inj hp hp' hc.1 hc'.1 (fun m hm => (hc.2 m hm).2) (fun m hm => (hc'.2 m hm).2) h

/-! ### No newlines -/

theorem tagLines_line {o : Obj} (hc : ClearAttrs o) : ∀ l ∈ tagLines o.tags, '\n' ∉ l := by
  intro l hl
  obtain ⟨t, ht, rfl⟩ := List.mem_map.1 hl
  obtain ⟨h1, h2, -⟩ := hc.tags t ht
  simp only [List.cons_append, List.mem_cons, List.mem_append, not_or]
  exact ⟨by decide, h1, by decide, h2⟩

theorem spacedText_line {ts : List (List Char)} (h : ∀ t ∈ ts, '\n' ∉ t) : '\n' ∉ spacedText ts := by
  intro hc
  rcases mem_spacedText hc with h' | ⟨t, ht, h'⟩
  · revert h'; decide
  · exact h t ht h'

theorem attrTexts_line {o : Obj} (hc : ClearAttrs o) : ∀ t ∈ attrTexts o, '\n' ∉ t := by
  intro t ht h
  rcases attr_chars ht h with h | h
  · revert h; decide
  · exact hc.user h

theorem callLines_line {num : ℚ → List Char} (hn : NumberText num) {c : WholeCall} (hp : PlainCall num c)
    (hc : ClearCall c) : ∀ l ∈ callLines num c, '\n' ∉ l := by
  intro l hl
  match c, hp, hc with
  | .call (.init _), _, _ => rw [List.mem_singleton.1 hl]; decide +kernel
  | .call .final, _, _ => rw [List.mem_singleton.1 hl]; decide +kernel
  | .call (.before _), _, _ => simp [callLines] at hl
  | .call (.after _), _, _ => simp [callLines] at hl
  | .area a g, _, hc =>
    rcases List.mem_cons.1 hl with rfl | hl
    · apply spacedText_line
      intro t ht
      simp only [List.mem_cons, List.not_mem_nil, or_false] at ht
      rcases ht with rfl | rfl | rfl | rfl | rfl | rfl | rfl | rfl
      · decide +kernel
      · decide +kernel
      · split <;> decide +kernel
      · exact intDec_line _
      · exact intDec_line _
      · exact toIso_line _
      · exact intDec_line _
      · exact intDec_line _
    · exact tagLines_line hc l hl
  | .call (.obj (.node n)), _, hc =>
    rcases List.mem_append.1 hl with hl | hl
    · rcases List.mem_cons.1 hl with rfl | hl
      · apply spacedText_line
        intro t ht
        rcases List.mem_append.1 ht with ht | ht
        · rcases List.mem_cons.1 ht with rfl | ht
          · decide +kernel
          · exact attrTexts_line hc.1 t ht
        · simp only [List.mem_cons, List.not_mem_nil, or_false] at ht
          rcases ht with rfl | rfl | rfl | rfl
          · exact fun h => (hn.2 _ _ h).2 rfl
          · exact fun h => (hn.2 _ _ h).2 rfl
          · exact (wkt_no_newline n.position (LineString.new [] false 0)).1
          · simp only [List.cons_append, List.mem_cons, List.mem_append, not_or, List.not_mem_nil, not_false_iff, and_true]
            exact ⟨by decide, hexDump_no_newline _, by decide⟩
      · exact tagLines_line hc.1 l hl
    · simp [partLines] at hl
  | .call (.obj (.way w)), _, hc =>
    rcases List.mem_append.1 hl with hl | hl
    · rcases List.mem_cons.1 hl with rfl | hl
      · apply spacedText_line
        intro t ht
        rcases List.mem_append.1 ht with ht | ht
        · rcases List.mem_cons.1 ht with rfl | ht
          · decide +kernel
          · exact attrTexts_line hc.1 t ht
        · rw [List.mem_singleton] at ht
          subst ht
          split
          · exact (wkt_no_newline ⟨0, 0⟩ _).2
          · decide +kernel
      · exact tagLines_line hc.1 l hl
    · obtain ⟨n, -, rfl⟩ := List.mem_map.1 hl
      simp only [List.mem_append, not_or]
      exact ⟨by decide +kernel, intDec_line _⟩
  | .call (.obj (.relation r)), hp, hc =>
    rcases List.mem_append.1 hl with hl | hl
    · rcases List.mem_cons.1 hl with rfl | hl
      · apply spacedText_line
        intro t ht
        rcases List.mem_cons.1 ht with rfl | ht
        · decide +kernel
        · exact attrTexts_line hc.1 t ht
      · exact tagLines_line hc.1 l hl
    · obtain ⟨m, hm, rfl⟩ := List.mem_map.1 hl
      have : '\n' ∉ spacedText ["member".toList, [m.type], intDec m.ref, m.role.toList] := by
        apply spacedText_line
        intro t ht
        simp only [List.mem_cons, List.not_mem_nil, or_false] at ht
        rcases ht with rfl | rfl | rfl | rfl
        · decide +kernel
        · rcases (hp.2.2.2 m hm).1 with e | e | e <;> rw [e] <;> decide
        · exact intDec_line _
        · exact (hc.2 m hm).1
      simp only [List.mem_cons, not_or]
      exact ⟨by decide, this⟩

/-- **C115 (partial: only for texts that can be told apart, see `listing_ambiguous`).**  What the scripts print determines
the objects: if they print the same for two sequences of objects, these are the same objects in the same order. -/
theorem listing_complete_partial {num : ℚ → List Char} (hn : NumberText num) (cs cs' : List WholeCall)
    (h : ∀ c ∈ cs, PlainCall num c ∧ ClearCall c) (h' : ∀ c ∈ cs', PlainCall num c ∧ ClearCall c)
    (out : List UInt8) (e : callChain (listWholeCall num) [] cs = .ok out)
    (e' : callChain (listWholeCall num) [] cs' = .ok out) :
    List.Forall₂ SameShown (cs.filter isShown) (cs'.filter isShown) := by
  rw [listing_lines_partial hn cs fun c hc => (h c hc).1] at e
  rw [listing_lines_partial hn cs' fun c hc => (h' c hc).1] at e'
  have e1 := utf8_injective (Except.ok.inj (e.trans e'.symm))
  have hl : ∀ cs : List WholeCall, (∀ c ∈ cs, PlainCall num c ∧ ClearCall c) →
      ∀ l ∈ cs.flatMap (callLines num), '\n' ∉ l := by
    intro cs h l hl
    obtain ⟨c, hc, hl⟩ := List.mem_flatMap.1 hl
    exact callLines_line hn (h c hc).1 (h c hc).2 l hl
  have e2 := lines_injective (hl cs h) (hl cs' h') e1
  rw [callLines_blocks, callLines_blocks] at e2
  have hb : ∀ cs : List WholeCall, ∀ x ∈ (cs.filter isShown).map (callBlock num), IsBlock x := by
    intro cs x hx
    obtain ⟨c, hc, rfl⟩ := List.mem_map.1 hx
    exact callBlock_block num (List.mem_filter.1 hc).2
  have e3 := blocks_inj (hb cs) (hb cs') e2
  have g : ∀ {a b : List WholeCall}, (∀ c ∈ a, (PlainCall num c ∧ ClearCall c) ∧ isShown c = true) →
      (∀ c ∈ b, (PlainCall num c ∧ ClearCall c) ∧ isShown c = true) → a.map (callBlock num) = b.map (callBlock num) →
      List.Forall₂ SameShown a b := by
    intro a
    induction a with
    | nil =>
      intro b _ _ e
      cases b with
      | nil => exact .nil
      | cons y b => simp at e
    | cons x a ih =>
      intro b ha hb e
      cases b with
      | nil => simp at e
      | cons y b =>
        simp only [List.map_cons, List.cons.injEq] at e
        have k1 := ha x List.mem_cons_self
        have k2 := hb y List.mem_cons_self
        exact .cons (call_inj k1.1.1 k2.1.1 k1.1.2 k2.1.2 k1.2 k2.2 e.1)
          (ih (fun c hc => ha c (List.mem_cons_of_mem _ hc)) (fun c hc => hb c (List.mem_cons_of_mem _ hc)) e.2)
  refine g ?_ ?_ e3
  · intro c hc
    obtain ⟨h1, h2⟩ := List.mem_filter.1 hc
    exact ⟨h c h1, h2⟩
  · intro c hc
    obtain ⟨h1, h2⟩ := List.mem_filter.1 hc
    exact ⟨h' c h1, h2⟩

end Osmium
