import Verif.Javascript.GeomScript
import Verif.Javascript.ListingFile
import Verif.Javascript.AreaScriptProps
import Verif.Geometry.Bits

/-
C118: what testgeom.js prints.
-/
namespace Osmium
open Spec Text

namespace Spec

/-- A JSON array of these elements. -/
def jsonArray (ts : List (List Char)) : List Char := '[' :: ((ts.intersperse [',']).flatten ++ [']'])

/-- A position in JSON: longitude and latitude. -/
def jsonPoint (num : ℚ → List Char) (p : Position) : List Char := jsonArray [num (xy p).1, num (xy p).2]

/-- The positions of a line or ring in JSON. -/
def jsonPoints (num : ℚ → List Char) (ps : List Position) : List Char := jsonArray (ps.map (jsonPoint num))

/-- The polygons of an area in JSON: for each a list of rings, the outer one first. -/
def jsonPolygons (num : ℚ → List Char) (ps : List (Coords × List Coords)) : List Char :=
  jsonArray (ps.map fun p => jsonArray (jsonPoints num p.1 :: p.2.map (jsonPoints num)))

/-- The labels of the lines for the property `geom`. -/
def geomLabels : List String := ["geom.toArray():       ", "geom.toWKT():         ", "geom.toWKT(true):     ",
  "geom.toHexWKB():      ", "geom.toHexWKB(true):  "]

/-- Texts with labels in front of them. -/
def withLabels (labels : List String) (ts : List (List Char)) : List (List Char) :=
  List.zipWith (fun l t => l.toList ++ t) labels ts

/-- The five texts describe the geometry: JSON; WKT and EWKT with the exact coordinates; WKB and EWKB with the coordinates
as doubles, in hexadecimal. -/
def DescribesGeom (json : List Char) (exact double : GeoValue) (ts : List (List Char)) : Prop :=
  ∃ wkt ewkt wkb ewkb, ts = [json, wkt, ewkt, hexDump wkb, hexDump ewkb] ∧
    wktDecode wkt = some (false, exact) ∧ wktDecode ewkt = some (true, exact) ∧
    wkbDecode wkb = some (none, double) ∧ wkbDecode ewkb = some (some 4326, double)

/-- The lines for a node. -/
def NodeShown (num : ℚ → List Char) (n : Node) (ls : List (List Char)) : Prop :=
  ∃ ts, DescribesGeom (jsonPoint num n.position) (.point (degrees n.position)) (.point (xy n.position)) ts ∧
    ls = withLabels (["node id:              ", "geom.lon:             ", "geom.lat:             "] ++ geomLabels)
      (intDec n.obj.id :: num (xy n.position).1 :: num (xy n.position).2 :: ts) ++ [[]]

/-- The lines for a way. -/
def WayShown (num : ℚ → List Char) (w : Way) (ls : List (List Char)) : Prop :=
  ∃ ts rev poly, let ps := w.nodes.map (·.position)
    ls = withLabels ("way id:               " :: geomLabels ++ ["reverse_geom.toWKT(): ", "polygon_geom.toWKT(): "])
      (intDec w.obj.id :: ts ++ [rev, poly]) ++ [[]] ∧
    (EndKnown w → DescribesGeom (jsonPoints num ps) (.line (ps.map degrees)) (.line (ps.map xy)) ts ∧
      wktDecode rev = some (false, .line (ps.reverse.map degrees))) ∧
    (¬ EndKnown w → ts = List.replicate 5 "undefined".toList ∧ rev = "undefined".toList) ∧
    (EndKnown w ∧ EndsAtStart w → wktDecode poly = some (false, .polygon [ps.map degrees])) ∧
    (¬ (EndKnown w ∧ EndsAtStart w) → poly = "undefined".toList)

/-- The lines for an area; WKT and WKB are what GEOS makes of its polygons. -/
def AreaShown (geos : GeosTexts) (num : ℚ → List Char) (a : Area × Option Geom) (ls : List (List Char)) : Prop :=
  ∃ ps, AreaRings a ps ∧ ls = withLabels ("area id:              " :: geomLabels) [intDec a.1.obj.id,
    jsonPolygons num ps, geos.wkt ps, "SRID=4326;".toList ++ geos.wkt ps, geos.hex false ps, geos.hex true ps] ++ [[]]

/-- The lines for a call of the script. -/
def CallShown (geos : GeosTexts) (num : ℚ → List Char) : WholeCall → List (List Char) → Prop
  | .call (.obj (.node n)), ls => NodeShown num n ls
  | .call (.obj (.way w)), ls => WayShown num w ls
  | .area a g, ls => AreaShown geos num (a, g) ls
  | _, ls => ls = []

/-- Numbers as texts are short, besides what is assumed in C115. -/
def ShortNumbers (num : ℚ → List Char) : Prop := NumberText num ∧ ∀ q, (num q).length ≤ 100

/-- The texts for the polygons of an area are not longer than what can be printed and have no zero characters. -/
def ShownPolygons (geos : GeosTexts) (num : ℚ → List Char) (ps : List (Coords × List Coords)) : Prop :=
  (jsonPolygons num ps).length < 268000000 ∧
  ∀ t ∈ [geos.wkt ps, geos.hex false ps, geos.hex true ps], t.length < 268000000 ∧ '\x00' ∉ t

/-- An id that scripts see as it is and 32 bit coordinates; a way has at most a million nodes. -/
def ShownCall (geos : GeosTexts) (num : ℚ → List Char) : WholeCall → Prop
  | .call (.obj (.node n)) => |n.obj.id| ≤ 9007199254740992 ∧ n.position.WF
  | .call (.obj (.way w)) => |w.obj.id| ≤ 9007199254740992 ∧ NodesWF w.nodes ∧ w.nodes.length ≤ 1000000
  | .area a g => |a.obj.id| ≤ 9007199254740992 ∧ ∀ ps, AreaRings (a, g) ps → ShownPolygons geos num ps
  | _ => True

end Spec

/-! ### JSON -/

theorem json_array {α : Type} {num : ℚ → List Char} (f : α → JsVal) (t : α → List Char) :
    ∀ l : List α, (∀ a ∈ l, jsJson num (f a) = some (utf16 (t a))) →
      jsJson num (.arr (l.map f)) = some (utf16 (jsonArray (l.map t))) := by
  have key : ∀ l : List α, (∀ a ∈ l, jsJson num (f a) = some (utf16 (t a))) →
      jsJsonList num (l.map f) = utf16 (((l.map t).intersperse [',']).flatten) := by
    intro l
    induction l with
    | nil => intro _; simp [jsJsonList, utf16]
    | cons a l ih =>
      intro h
      cases l with
      | nil => simp [jsJsonList, h a List.mem_cons_self]
      | cons b l =>
        have ih := ih fun a ha => h a (List.mem_cons_of_mem _ ha)
        simp only [List.map_cons] at ih ⊢
        rw [jsJsonList, h a List.mem_cons_self, ih, Option.getD_some, jsLit_eq, ← utf16_append', ← utf16_append']
        simp
  intro l h
  rw [jsJson, key l h, jsLit_eq, jsLit_eq, ← utf16_append', ← utf16_append']
  simp [jsonArray]

theorem json_point (num : ℚ → List Char) (p : Position) :
    jsJson num (positionToArray p) = some (utf16 (jsonPoint num p)) := by
  have := json_array (num := num) JsVal.num num [p.lon, p.lat] (fun q _ => by rw [jsJson, jsLit_eq])
  exact this

theorem json_points (num : ℚ → List Char) (ps : List Position) :
    jsJson num (.arr (ps.map positionToArray)) = some (utf16 (jsonPoints num ps)) :=
  json_array _ _ ps fun p _ => json_point num p

theorem json_polygons (num : ℚ → List Char) (ps : List (Coords × List Coords)) :
    jsToArray (.multi ps) = .ok (.arr (ps.map fun p => .arr (ringAsArray p.1 :: p.2.map ringAsArray))) ∧
    jsJson num (.arr (ps.map fun p => .arr (ringAsArray p.1 :: p.2.map ringAsArray))) =
      some (utf16 (jsonPolygons num ps)) := by
  refine ⟨rfl, json_array _ (fun p : Coords × List Coords => jsonArray (jsonPoints num p.1 :: p.2.map (jsonPoints num))) ps
    fun p _ => ?_⟩
  have := json_array (num := num) ringAsArray (jsonPoints num) (p.1 :: p.2) (fun r _ => json_points num r)
  exact this

theorem mem_jsonArray {c : Char} {ts : List (List Char)} (h : c ∈ jsonArray ts) :
    c = '[' ∨ c = ',' ∨ c = ']' ∨ ∃ t ∈ ts, c ∈ t := by
  unfold jsonArray at h
  simp only [List.mem_cons, List.mem_append, List.not_mem_nil, or_false] at h
  rcases h with h | h | h
  · exact .inl h
  · rcases mem_intersperse_flatten h with h | h
    · exact .inr (.inl (by simpa using h))
    · exact .inr (.inr (.inr h))
  · exact .inr (.inr (.inl h))

theorem jsonArray_not_nul {ts : List (List Char)} (h : ∀ t ∈ ts, '\x00' ∉ t) : '\x00' ∉ jsonArray ts := by
  intro hc
  rcases mem_jsonArray hc with h' | h' | h' | ⟨t, ht, h'⟩
  · exact absurd h' (by decide)
  · exact absurd h' (by decide)
  · exact absurd h' (by decide)
  · exact h t ht h'

theorem jsonPoint_not_nul {num : ℚ → List Char} (hn : NumberText num) (p : Position) : '\x00' ∉ jsonPoint num p := by
  apply jsonArray_not_nul
  intro t ht
  simp only [List.mem_cons, List.not_mem_nil, or_false] at ht
  rcases ht with rfl | rfl <;> exact fun h => (hn.2 _ _ h).1 rfl

theorem jsonPoints_not_nul {num : ℚ → List Char} (hn : NumberText num) (ps : List Position) : '\x00' ∉ jsonPoints num ps := by
  apply jsonArray_not_nul
  intro t ht
  obtain ⟨p, -, rfl⟩ := List.mem_map.1 ht
  exact jsonPoint_not_nul hn p

theorem jsonPolygons_not_nul {num : ℚ → List Char} (hn : NumberText num) (ps : List (Coords × List Coords)) :
    '\x00' ∉ jsonPolygons num ps := by
  apply jsonArray_not_nul
  intro t ht
  obtain ⟨p, -, rfl⟩ := List.mem_map.1 ht
  apply jsonArray_not_nul
  intro t ht
  rcases List.mem_cons.1 ht with rfl | ht
  · exact jsonPoints_not_nul hn _
  · obtain ⟨p, -, rfl⟩ := List.mem_map.1 ht
    exact jsonPoints_not_nul hn _

/-! ### Lengths -/

theorem intersperse_length (ts : List (List Char)) (k : Nat) (h : ∀ t ∈ ts, t.length ≤ k) :
    ((ts.intersperse [',']).flatten).length ≤ (k + 1) * ts.length := by
  induction ts with
  | nil => simp
  | cons t ts ih =>
    have h1 := h t List.mem_cons_self
    have ih := ih fun t ht => h t (List.mem_cons_of_mem _ ht)
    cases ts with
    | nil => simp; omega
    | cons u us =>
      rw [List.intersperse_cons_cons, List.flatten_cons, List.flatten_cons, List.length_append, List.length_append,
        List.length_cons (a := t)]
      have : [','].length = 1 := rfl
      rw [Nat.mul_add]
      omega

theorem jsonPoint_length {num : ℚ → List Char} (hn : ShortNumbers num) (p : Position) : (jsonPoint num p).length ≤ 204 := by
  have h := intersperse_length [num (xy p).1, num (xy p).2] 100 (by
    intro t ht
    simp only [List.mem_cons, List.not_mem_nil, or_false] at ht
    rcases ht with rfl | rfl <;> exact hn.2 _)
  unfold jsonPoint jsonArray
  simp only [List.length_cons, List.length_append, List.length_nil] at h ⊢
  omega

theorem jsonPoints_length {num : ℚ → List Char} (hn : ShortNumbers num) (ps : List Position) :
    (jsonPoints num ps).length ≤ 205 * ps.length + 2 := by
  have h := intersperse_length (ps.map (jsonPoint num)) 204 (by
    intro t ht
    obtain ⟨p, -, rfl⟩ := List.mem_map.1 ht
    exact jsonPoint_length hn p)
  unfold jsonPoints jsonArray
  simp only [List.length_cons, List.length_append, List.length_nil, List.length_map] at h ⊢
  omega

theorem natDec_ten {m : Nat} (h1 : 1000000000 ≤ m) (h2 : m < 10000000000) : (natDec m).length = 10 :=
  natDec_length m 9 (by omega) (by omega)

theorem stripZeros_length (ds : List Char) : (stripZeros ds).length ≤ ds.length := by
  obtain ⟨k, e⟩ := stripZeros_spec ds
  have := congrArg List.length e
  rw [List.length_append] at this
  omega

theorem fracPart_length (ds : List Char) : (fracPart ds).length ≤ ds.length + 1 := by
  unfold fracPart
  split <;> simp

theorem gText_length {m : Nat} {e : Int} (h1 : 1000000000 ≤ m) (h2 : m < 10000000000) (h3 : -7 ≤ e) (h4 : e ≤ 2) :
    (gText m e).length ≤ 20 := by
  have hd := natDec_ten h1 h2
  unfold gText
  simp only
  split
  · split
    · have a := fracPart_length (stripZeros ((natDec m).drop (e.toNat + 1)))
      have b := stripZeros_length ((natDec m).drop (e.toNat + 1))
      rw [List.length_append, List.length_take]
      rw [List.length_drop] at b
      omega
    · have a := fracPart_length (stripZeros (List.replicate (-e - 1).toNat '0' ++ natDec m))
      have b := stripZeros_length (List.replicate (-e - 1).toNat '0' ++ natDec m)
      rw [List.length_append, List.length_replicate] at b
      rw [List.length_cons]
      omega
  · have a := fracPart_length (stripZeros ((natDec m).drop 1))
    have b := stripZeros_length ((natDec m).drop 1)
    rw [List.length_drop] at b
    have c : (expDigits e.natAbs).length ≤ 2 := by
      have : ∀ n < 10, (expDigits n).length ≤ 2 := by decide
      exact this _ (by omega)
    simp only [List.length_append, List.length_take, List.length_cons]
    omega

theorem coordinate_length {x : Int} (h : InS32 x) : (fmtG10 (fixToDouble x)).length ≤ 21 := by
  rw [fmtG10_fix x h]
  split
  · decide
  · rename_i h0
    have hN : x.natAbs ≠ 0 := by omega
    have hlog : Nat.log 10 x.natAbs ≤ 9 := by
      have : Nat.log 10 x.natAbs < 10 := Nat.log_lt_of_lt_pow hN (by unfold InS32 at h; omega)
      omega
    have a := Nat.pow_log_le_self 10 hN
    have b := Nat.lt_pow_succ_log_self (b := 10) (by norm_num) x.natAbs
    have c : 10 ^ Nat.log 10 x.natAbs * 10 ^ (9 - Nat.log 10 x.natAbs) = 10 ^ 9 := by
      rw [← pow_add]; congr 1; omega
    have d : 10 ^ (Nat.log 10 x.natAbs + 1) * 10 ^ (9 - Nat.log 10 x.natAbs) = 10 ^ 10 := by
      rw [← pow_add]; congr 1; omega
    have hp : 0 < 10 ^ (9 - Nat.log 10 x.natAbs) := by positivity
    have := gText_length (m := x.natAbs * 10 ^ (9 - Nat.log 10 x.natAbs)) (e := (Nat.log 10 x.natAbs : ℤ) - 7)
      (by calc 1000000000 = 10 ^ 9 := by norm_num
          _ = _ := c.symm
          _ ≤ _ := Nat.mul_le_mul_right _ a)
      (by calc _ < 10 ^ (Nat.log 10 x.natAbs + 1) * 10 ^ (9 - Nat.log 10 x.natAbs) := Nat.mul_lt_mul_of_pos_right b hp
          _ = 10 ^ 10 := d
          _ = 10000000000 := by norm_num)
      (by omega) (by omega)
    rw [List.length_append]
    split <;> simp <;> omega

theorem lonLatText_length {p : Position} (h : p.WF) : (lonLatText p).length ≤ 43 := by
  have a := coordinate_length h.1
  have b := coordinate_length h.2
  unfold lonLatText Position.lon Position.lat
  rw [List.length_append, List.length_cons]
  omega

theorem prefix_length (srid : Bool) : (if srid then "SRID=4326;".toList else []).length ≤ 10 := by
  cases srid <;> decide

theorem wkt_lengths {p : Position} (hp : p.WF) (g : FromWay) (hg : NodesWF g.nodes) (srid : Bool) :
    (pointWkt p srid).length ≤ 100 ∧ (lineWkt g srid).length ≤ 44 * g.nodes.length + 100 ∧
    (polygonWkt g srid).length ≤ 44 * g.nodes.length + 100 := by
  obtain ⟨e1, e2, e3⟩ := wkt_text p g srid
  have hs := prefix_length srid
  have h1 := lonLatText_length hp
  have hd : ∀ r, (inDirection r g.nodes).length = g.nodes.length := by
    intro r; unfold inDirection; split <;> simp
  have h2 : ∀ r, ((((inDirection r g.nodes).map lonLatText).intersperse [',']).flatten).length ≤ 44 * g.nodes.length := by
    intro r
    have := intersperse_length ((inDirection r g.nodes).map lonLatText) 43 (by
      intro t ht
      obtain ⟨q, hq, rfl⟩ := List.mem_map.1 ht
      refine lonLatText_length ?_
      unfold inDirection at hq
      have : q ∈ g.nodes.map (·.position) := by split at hq <;> simpa using hq
      obtain ⟨n, hn, rfl⟩ := List.mem_map.1 this
      exact hg n hn)
    rwa [List.length_map, hd] at this
  have l1 : "POINT(".toList.length = 6 ∧ "LINESTRING(".toList.length = 11 ∧ "POLYGON((".toList.length = 9 := by decide
  rw [e1, e2, e3]
  refine ⟨?_, ?_, ?_⟩
  · simp only [List.length_append, List.length_cons, List.length_nil, l1]; omega
  · have := h2 g.reverse
    simp only [List.length_append, List.length_cons, List.length_nil, l1] at this ⊢; omega
  · have := h2 false
    simp only [List.length_append, List.length_cons, List.length_nil, l1] at this ⊢; omega

theorem wkbNodes_length (nodes : List WayNode) : (wkbNodes nodes).length = 16 * nodes.length := by
  unfold wkbNodes
  induction nodes with
  | nil => rfl
  | cons n ns ih =>
    rw [List.flatMap_cons, List.length_append, ih, List.length_append, writeBinaryDouble, writeBinaryDouble,
      leBytes_length, leBytes_length, List.length_cons]
    omega

theorem hexDump_length (b : List UInt8) : (hexDump b).length = 2 * b.length := by
  unfold hexDump
  induction b with
  | nil => rfl
  | cons x xs ih => rw [List.flatMap_cons, List.length_append, ih]; simp; omega

theorem header_length (srid : Bool) (t : Nat) : (writeBinaryWkbHeader srid t).length ≤ 9 := by
  unfold writeBinaryWkbHeader writeBinary
  cases srid <;> simp [leBytes_length]

theorem wkb_lengths (p : Position) (g : FromWay) (srid : Bool) :
    (hexDump (pointWkb p srid)).length ≤ 100 ∧ (hexDump (lineWkb g srid)).length ≤ 32 * g.nodes.length + 100 := by
  rw [hexDump_length, hexDump_length]
  have h1 := header_length srid wkbPoint
  have h2 := header_length srid wkbLineString
  unfold pointWkb lineWkb writeBinaryDouble writeBinary
  refine ⟨?_, ?_⟩
  · simp only [List.length_append, leBytes_length]; omega
  · have : (if g.reverse then wkbNodes g.nodes.reverse else wkbNodes g.nodes).length = 16 * g.nodes.length := by
      split <;> rw [wkbNodes_length] <;> simp
    simp only [List.length_append, leBytes_length, this]; omega

/-! ### Printing -/

theorem printAll_ok (ts : List (List Char)) (h : ∀ t ∈ ts, Printable t) (out : List UInt8) :
    printAll out (ts.map fun t => .ok (utf16 t)) = .ok (out ++ printed ts) := by
  induction ts generalizing out with
  | nil => simp [printAll, printed, utf8]
  | cons t ts ih =>
    rw [List.map_cons, printAll, bind_ok, printText_ok _ _ (h t List.mem_cons_self), bind_ok,
      ih fun t ht => h t (List.mem_cons_of_mem _ ht), List.append_assoc, ← printed_one, ← printed_append]
    rfl

theorem labelled_ok {num : ℚ → List Char} (label : String) {v : Res JsVal} {x : JsVal} {t : List Char} (hv : v = .ok x)
    (hx : jsShow num x = utf16 t) : labelled num label v = .ok (utf16 (label.toList ++ t)) := by
  subst hv
  unfold labelled
  simp only [Except.map]
  rw [hx, jsLit_eq, ← utf16_append']

theorem labelledJson_ok {num : ℚ → List Char} (label : String) {v : Res JsVal} {x : JsVal} {t : List Char} (hv : v = .ok x)
    (hx : jsJson num x = some (utf16 t)) : labelledJson num label v = .ok (utf16 (label.toList ++ t)) := by
  subst hv
  unfold labelledJson
  simp only [Except.map]
  rw [hx, jsLit_eq, Option.getD_some, ← utf16_append']

theorem labelledJson_undefined {num : ℚ → List Char} (label : String) {v : Res JsVal} (hv : v = .ok .undefined) :
    labelledJson num label v = .ok (utf16 (label.toList ++ "undefined".toList)) := by
  subst hv
  unfold labelledJson
  simp only [Except.map, jsJson]
  rw [jsLit_eq, jsLit_eq, Option.getD_none, ← utf16_append']

/-- The lines for `geom`, given the texts. -/
theorem geomShown_ok {geos : GeosTexts} {num : ℚ → List Char} {v : Res JsVal} {g : JsGeom} {t1 t2 t3 t4 t5 : List Char}
    (hv : v = .ok (.geom g))
    (h1 : labelledJson num "geom.toArray():       " (jsToArray g) = .ok (utf16 ("geom.toArray():       ".toList ++ t1)))
    (h2 : jsShow num (geomWkt geos false g) = utf16 t2) (h3 : jsShow num (geomWkt geos true g) = utf16 t3)
    (h4 : jsShow num (geomHex geos false g) = utf16 t4) (h5 : jsShow num (geomHex geos true g) = utf16 t5) :
    geomShown geos num v = (withLabels geomLabels [t1, t2, t3, t4, t5]).map fun t => .ok (utf16 t) := by
  subst hv
  unfold geomShown
  have e : ∀ f, ofGeom (.ok (.geom g)) f = f g := fun _ => rfl
  rw [e, e, e, e, e, h1, labelled_ok _ rfl h2, labelled_ok _ rfl h3, labelled_ok _ rfl h4, labelled_ok _ rfl h5]
  rfl

theorem withLabels_cons (l : String) (ls : List String) (t : List Char) (ts : List (List Char)) :
    withLabels (l :: ls) (t :: ts) = (l.toList ++ t) :: withLabels ls ts := rfl

/-- All labels are short. (helper for statements and proofs, no counterpart in /repo) -/
def allLabels : List String := ["node id:              ", "geom.lon:             ", "geom.lat:             ",
  "way id:               ", "reverse_geom.toWKT(): ", "polygon_geom.toWKT(): ", "area id:              "] ++ geomLabels

theorem labels_ok : ∀ l ∈ allLabels, l.toList.length = 22 ∧ '\x00' ∉ l.toList := by decide +kernel

theorem withLabels_printable {ls : List String} {ts : List (List Char)} (hl : ∀ l ∈ ls, l ∈ allLabels)
    (ht : ∀ t ∈ ts, '\x00' ∉ t ∧ t.length < 268400000) : ∀ t ∈ withLabels ls ts, Printable t := by
  intro t h
  obtain ⟨i, hi, rfl⟩ := List.getElem_of_mem h
  unfold withLabels at hi ⊢
  rw [List.getElem_zipWith]
  rw [List.length_zipWith] at hi
  have a := labels_ok _ (hl _ (List.getElem_mem (by omega : i < ls.length)))
  have b := ht _ (List.getElem_mem (by omega : i < ts.length))
  refine printable_short ?_ ?_
  · rw [List.mem_append, not_or]; exact ⟨a.2, b.1⟩
  · rw [List.length_append]; omega

theorem printable_nil : Printable [] := printable_short (by simp) (by decide)

theorem shownId {num : ℚ → List Char} (hn : NumberText num) {id : Int} (h : |id| ≤ 9007199254740992) :
    jsShow num (jsNumber id) = utf16 (intDec id) := by
  rw [jsNumber_exact h, jsShow, hn.1 _ h, jsLit_eq]

theorem id_ok {id : Int} (h : |id| ≤ 9007199254740992) : '\x00' ∉ intDec id ∧ (intDec id).length < 268400000 :=
  ⟨intDec_not_nul _, by have := intDec_short h; omega⟩

theorem num_ok {num : ℚ → List Char} (hn : ShortNumbers num) (q : ℚ) : '\x00' ∉ num q ∧ (num q).length < 268400000 :=
  ⟨fun h => (hn.1.2 _ _ h).1 rfl, by have := hn.2 q; omega⟩

/-- One node. -/
theorem testgeomNode_ok (geos : GeosTexts) {num : ℚ → List Char} (hn : ShortNumbers num) {n : Node}
    (hid : |n.obj.id| ≤ 9007199254740992) (hp : n.position.WF) (out : List UInt8) :
    ∃ ls, NodeShown num n ls ∧ testgeomNode geos num out n = .ok (out ++ printed ls) := by
  have hw : ∀ srid, jsShow num (geomWkt geos srid (.point n.position)) = utf16 (pointWkt n.position srid) := by
    intro srid
    simp only [geomWkt, jsToWkt, Option.getD_some, jsShow]
    exact v8New_utf8 (wkt_not_nul n.position (LineString.new [] false 0) srid).1
  have hx : ∀ srid, jsShow num (geomHex geos srid (.point n.position)) = utf16 (hexDump (pointWkb n.position srid)) := by
    intro srid
    simp only [geomHex, jsToHexWkb, Option.getD_some, jsShow, (hex_wkb_is_dump n.position (LineString.new [] false 0) srid).1]
    exact v8New_utf8 (hexDump_not_nul _)
  have hg : jsNodeProp n "geom" = .ok (.geom (.point n.position)) := rfl
  have hi : jsNodeProp n "id" = .ok (jsNumber n.obj.id) := rfl
  have h1 := labelledJson_ok (num := num) "geom.toArray():       " (v := jsToArray (.point n.position)) rfl
    (json_point num n.position)
  have hl := geomShown_ok hg h1 (hw false) (hw true) (hx false) (hx true)
  refine ⟨_, ⟨_, ⟨pointWkt n.position false, pointWkt n.position true, pointWkb n.position false, pointWkb n.position true,
    rfl, point_wkt_decodes _ hp false, point_wkt_decodes _ hp true, point_wkb_decodes _ hp false,
    point_wkb_decodes _ hp true⟩, rfl⟩, ?_⟩
  rw [← printAll_ok]
  · unfold testgeomNode
    rw [hl, labelled_ok _ hi (shownId hn.1 hid)]
    have e1 := labelled_ok (num := num) "geom.lon:             "
      (v := ofGeom (jsNodeProp n "geom") fun g => .ok (jsGeomProp g "lon")) (x := .num n.position.lon)
      (t := num (xy n.position).1) (by rw [hg]; rfl) (by rw [jsShow, jsLit_eq]; rfl)
    have e2 := labelled_ok (num := num) "geom.lat:             "
      (v := ofGeom (jsNodeProp n "geom") fun g => .ok (jsGeomProp g "lat")) (x := .num n.position.lat)
      (t := num (xy n.position).2) (by rw [hg]; rfl) (by rw [jsShow, jsLit_eq]; rfl)
    rw [e1, e2]
    rfl
  · intro t ht
    rcases List.mem_append.1 ht with ht | ht
    · refine withLabels_printable (by decide) ?_ t ht
      have a1 := wkt_lengths hp (LineString.new [] false 0) (by simp [NodesWF, LineString.new])
      have a2 := wkb_lengths n.position (LineString.new [] false 0)
      intro t ht
      simp only [List.mem_cons, List.not_mem_nil, or_false] at ht
      rcases ht with rfl | rfl | rfl | rfl | rfl | rfl | rfl | rfl
      · exact id_ok hid
      · exact num_ok hn _
      · exact num_ok hn _
      · exact ⟨jsonPoint_not_nul hn.1 _, by have := jsonPoint_length hn n.position; omega⟩
      · exact ⟨(wkt_not_nul n.position (LineString.new [] false 0) false).1, by have := (a1 false).1; omega⟩
      · exact ⟨(wkt_not_nul n.position (LineString.new [] false 0) true).1, by have := (a1 true).1; omega⟩
      · exact ⟨hexDump_not_nul _, by have := (a2 false).1; omega⟩
      · exact ⟨hexDump_not_nul _, by have := (a2 true).1; omega⟩
    · rw [List.mem_singleton] at ht
      subst ht
      exact printable_nil

theorem wayKnown (w : Way) : wayNodesHasPosition w.nodes = true ↔ EndKnown w := by
  unfold wayNodesHasPosition EndKnown
  cases w.nodes.getLast? with
  | none => simp
  | some b => simp [WayNode.hasPosition]

theorem undefined_ok : '\x00' ∉ "undefined".toList ∧ "undefined".toList.length < 268400000 := by decide

/-- The polygon of a way as a text. -/
theorem way_polygon_text (geos : GeosTexts) (num : ℚ → List Char) {w : Way} (hw : NodesWF w.nodes)
    (hl : w.nodes.length ≤ 1000000) :
    ∃ (g : JsGeom) (t : List Char), jsWayPolygon w = .ok g ∧ jsShow num (geomWkt geos false g) = utf16 t ∧
      ('\x00' ∉ t ∧ t.length < 268400000) ∧
      (EndKnown w ∧ EndsAtStart w → wktDecode t = some (false, .polygon [(w.nodes.map (·.position)).map degrees])) ∧
      (¬ (EndKnown w ∧ EndsAtStart w) → t = "undefined".toList) := by
  unfold jsWayPolygon
  by_cases h : EndKnown w
  · rw [if_pos ((wayKnown w).2 h)]
    have hne : w.nodes ≠ [] := by
      intro e
      obtain ⟨b, hb, -⟩ := h
      rw [e] at hb
      cases hb
    obtain ⟨f, hf⟩ : ∃ f, w.nodes.head? = some f := ⟨_, List.head?_eq_some_head hne⟩
    obtain ⟨l, hla⟩ : ∃ l, w.nodes.getLast? = some l := ⟨_, List.getLast?_eq_some_getLast hne⟩
    have hend : EndsAtStart w ↔ f.ref = l.ref := by
      unfold EndsAtStart
      rw [hf, hla]
      simp
    by_cases he : f.ref = l.ref
    · refine ⟨.polygon ⟨w.obj.id, w.nodes, false⟩, polygonWkt ⟨w.obj.id, w.nodes, false⟩ false, ?_, ?_, ⟨?_, ?_⟩, ?_, ?_⟩
      · rw [(polygon_from_way w.nodes false w.obj.id).2.1 f l hf hla he]
        simp [wayNodesIsClosed, hf, hla, he, Except.map]
      · simp only [geomWkt, jsToWkt, Option.getD_some, jsShow]
        exact v8New_utf8 (wkt_not_nul ⟨0, 0⟩ ⟨w.obj.id, w.nodes, false⟩ false).2.2
      · exact (wkt_not_nul ⟨0, 0⟩ ⟨w.obj.id, w.nodes, false⟩ false).2.2
      · have := (wkt_lengths (p := ⟨0, 0⟩) (by simp only [Position.WF]; decide) ⟨w.obj.id, w.nodes, false⟩ hw false).2.2
        simp only at this
        omega
      · intro _
        exact polygon_wkt_decodes ⟨w.obj.id, w.nodes, false⟩ hw hne false
      · intro hc
        exact absurd ⟨h, hend.2 he⟩ hc
    · refine ⟨.null, "undefined".toList, ?_, ?_, undefined_ok, ?_, fun _ => rfl⟩
      · have : (f.ref == l.ref) = false := by simpa using he
        simp [wayNodesIsClosed, hf, hla, this]
      · exact jsLit_eq _
      · intro hc
        exact absurd (hend.1 hc.2) he
  · rw [if_neg (fun hc => h ((wayKnown w).1 hc))]
    exact ⟨.null, "undefined".toList, rfl, jsLit_eq _, undefined_ok, fun hc => absurd hc.1 h, fun _ => rfl⟩

/-- The line of a way as texts. -/
theorem way_line_texts (geos : GeosTexts) {num : ℚ → List Char} (hn : ShortNumbers num) {w : Way} (hw : NodesWF w.nodes)
    (hl : w.nodes.length ≤ 1000000) :
    ∃ (ts : List (List Char)) (rev : List Char),
      geomShown geos num (jsWayProp w "geom") = ((withLabels geomLabels ts).map fun t => .ok (utf16 t)) ∧
      jsShow num (geomWkt geos false (jsWayLine w true)) = utf16 rev ∧ ts.length = 5 ∧
      (∀ t ∈ rev :: ts, '\x00' ∉ t ∧ t.length < 268400000) ∧
      (EndKnown w → DescribesGeom (jsonPoints num (w.nodes.map (·.position))) (.line ((w.nodes.map (·.position)).map degrees))
        (.line ((w.nodes.map (·.position)).map xy)) ts ∧
        wktDecode rev = some (false, .line ((w.nodes.map (·.position)).reverse.map degrees))) ∧
      (¬ EndKnown w → ts = List.replicate 5 "undefined".toList ∧ rev = "undefined".toList) := by
  have hg : jsWayProp w "geom" = .ok (.geom (jsWayLine w false)) := by simp [jsWayProp]
  by_cases h : EndKnown w
  · have hne : w.nodes ≠ [] := by
      intro e
      obtain ⟨b, hb, -⟩ := h
      rw [e] at hb
      cases hb
    have hj : ∀ r, jsWayLine w r = .line ⟨w.obj.id, w.nodes, r⟩ := by
      intro r
      unfold jsWayLine
      rw [if_pos ((wayKnown w).2 h)]
      rfl
    have hwkt : ∀ r srid, jsShow num (geomWkt geos srid (.line ⟨w.obj.id, w.nodes, r⟩)) =
        utf16 (lineWkt ⟨w.obj.id, w.nodes, r⟩ srid) := by
      intro r srid
      simp only [geomWkt, jsToWkt, Option.getD_some, jsShow]
      exact v8New_utf8 (wkt_not_nul ⟨0, 0⟩ ⟨w.obj.id, w.nodes, r⟩ srid).2.1
    have hwkb : ∀ srid, jsShow num (geomHex geos srid (.line ⟨w.obj.id, w.nodes, false⟩)) =
        utf16 (hexDump (lineWkb ⟨w.obj.id, w.nodes, false⟩ srid)) := by
      intro srid
      simp only [geomHex, jsToHexWkb, Option.getD_some, jsShow, (hex_wkb_is_dump ⟨0, 0⟩ ⟨w.obj.id, w.nodes, false⟩ srid).2.1]
      exact v8New_utf8 (hexDump_not_nul _)
    have harr : jsToArray (.line ⟨w.obj.id, w.nodes, false⟩) = .ok (.arr ((w.nodes.map (·.position)).map positionToArray)) := by
      simp only [jsToArray]
      rw [nodes_to_array ⟨w.obj.id, w.nodes, false⟩ hne (by show w.nodes.length < _; omega)]
      rfl
    have hjson := labelledJson_ok (num := num) "geom.toArray():       " harr (json_points num _)
    rw [hj] at hg
    refine ⟨_, lineWkt ⟨w.obj.id, w.nodes, true⟩ false,
      geomShown_ok hg hjson (hwkt false false) (hwkt false true) (hwkb false) (hwkb true), ?_, rfl, ?_, ?_, ?_⟩
    · rw [hj]; exact hwkt true false
    · have a1 := fun r srid => (wkt_lengths (p := ⟨0, 0⟩) (by simp only [Position.WF]; decide) ⟨w.obj.id, w.nodes, r⟩ hw srid).2.1
      have a2 := fun srid => (wkb_lengths ⟨0, 0⟩ ⟨w.obj.id, w.nodes, false⟩ srid).2
      simp only at a1 a2
      have a3 : ∀ r srid, '\x00' ∉ lineWkt ⟨w.obj.id, w.nodes, r⟩ srid := fun r srid =>
        (wkt_not_nul ⟨0, 0⟩ ⟨w.obj.id, w.nodes, r⟩ srid).2.1
      intro t ht
      simp only [List.mem_cons, List.not_mem_nil, or_false] at ht
      rcases ht with rfl | rfl | rfl | rfl | rfl | rfl
      · exact ⟨a3 _ _, by have := a1 true false; omega⟩
      · exact ⟨jsonPoints_not_nul hn.1 _, by
          have := jsonPoints_length hn (w.nodes.map (·.position))
          rw [List.length_map] at this
          omega⟩
      · exact ⟨a3 _ _, by have := a1 false false; omega⟩
      · exact ⟨a3 _ _, by have := a1 false true; omega⟩
      · exact ⟨hexDump_not_nul _, by have := a2 false; omega⟩
      · exact ⟨hexDump_not_nul _, by have := a2 true; omega⟩
    · intro _
      have hl' : w.nodes.length < 4294967296 := by omega
      exact ⟨⟨_, _, _, _, rfl, line_wkt_decodes ⟨w.obj.id, w.nodes, false⟩ hw hne false,
        line_wkt_decodes ⟨w.obj.id, w.nodes, false⟩ hw hne true, line_wkb_decodes ⟨w.obj.id, w.nodes, false⟩ hw hl' false,
        line_wkb_decodes ⟨w.obj.id, w.nodes, false⟩ hw hl' true⟩, line_wkt_decodes ⟨w.obj.id, w.nodes, true⟩ hw hne false⟩
    · intro hc
      exact absurd h hc
  · have hj : ∀ r, jsWayLine w r = .null := by
      intro r
      unfold jsWayLine
      rw [if_neg (fun hc => h ((wayKnown w).1 hc))]
    have hu : ∀ srid, jsShow num (geomWkt geos srid .null) = utf16 "undefined".toList ∧
        jsShow num (geomHex geos srid .null) = utf16 "undefined".toList := fun srid => ⟨jsLit_eq _, jsLit_eq _⟩
    rw [hj] at hg
    refine ⟨_, "undefined".toList, geomShown_ok hg (labelledJson_undefined _ rfl) (hu false).1 (hu true).1 (hu false).2
      (hu true).2, ?_, rfl, ?_, fun hc => absurd hc h, fun _ => ⟨rfl, rfl⟩⟩
    · rw [hj]; exact (hu false).1
    · intro t ht
      simp only [List.mem_cons, List.not_mem_nil, or_false, or_self] at ht
      subst ht
      exact undefined_ok

/-- One way. -/
theorem testgeomWay_ok (geos : GeosTexts) {num : ℚ → List Char} (hn : ShortNumbers num) {w : Way}
    (hid : |w.obj.id| ≤ 9007199254740992) (hw : NodesWF w.nodes) (hl : w.nodes.length ≤ 1000000) (out : List UInt8) :
    ∃ ls, WayShown num w ls ∧ testgeomWay geos num out w = .ok (out ++ printed ls) := by
  obtain ⟨ts, rev, e1, e2, e3, e4, e5, e6⟩ := way_line_texts geos hn hw hl
  obtain ⟨g, poly, p1, p2, p3, p4, p5⟩ := way_polygon_text geos num hw hl
  refine ⟨_, ⟨ts, rev, poly, rfl, e5, e6, p4, p5⟩, ?_⟩
  have hi : jsWayProp w "id" = .ok (jsNumber w.obj.id) := by simp [jsWayProp, jsObjectProp]
  have hr := labelled_ok (num := num) "reverse_geom.toWKT(): "
    (v := ofGeom (jsWayProp w "reverse_geom") fun g => .ok (geomWkt geos false g)) (by simp [jsWayProp, ofGeom, Except.bind]) e2
  have hp := labelled_ok (num := num) "polygon_geom.toWKT(): "
    (v := ofGeom (jsWayProp w "polygon_geom") fun g => .ok (geomWkt geos false g))
    (by simp [jsWayProp, p1, ofGeom, Except.bind, Except.map]) p2
  obtain ⟨t1, t2, t3, t4, t5, rfl⟩ : ∃ t1 t2 t3 t4 t5, ts = [t1, t2, t3, t4, t5] := by
    match ts, e3 with
    | [t1, t2, t3, t4, t5], _ => exact ⟨t1, t2, t3, t4, t5, rfl⟩
  rw [← printAll_ok]
  · unfold testgeomWay
    rw [e1, hr, hp, labelled_ok _ hi (shownId hn.1 hid)]
    rfl
  · intro t ht
    rcases List.mem_append.1 ht with ht | ht
    · refine withLabels_printable (by decide) ?_ t ht
      intro t ht
      rcases List.mem_cons.1 ht with rfl | ht
      · exact id_ok hid
      · rcases List.mem_append.1 ht with ht | ht
        · exact e4 t (List.mem_cons_of_mem _ ht)
        · simp only [List.mem_cons, List.not_mem_nil, or_false] at ht
          rcases ht with rfl | rfl
          · exact e4 _ List.mem_cons_self
          · exact p3
    · rw [List.mem_singleton] at ht
      subst ht
      exact printable_nil

/-- One area. -/
theorem testgeomArea_ok (geos : GeosTexts) {num : ℚ → List Char} (hn : ShortNumbers num) {a : Area} {g : Option Geom}
    (hid : |a.obj.id| ≤ 9007199254740992) {ps : List (Coords × List Coords)} (hps : areaPolygons a g = .ok ps)
    (hs : ShownPolygons geos num ps) (out : List UInt8) :
    ∃ ls, AreaShown geos num (a, g) ls ∧ testgeomArea geos num out a g = .ok (out ++ printed ls) := by
  refine ⟨_, ⟨ps, areaRings_iff hps, rfl⟩, ?_⟩
  obtain ⟨h1, h2⟩ := hs
  have k1 := h2 (geos.wkt ps) (by simp)
  have k2 := h2 (geos.hex false ps) (by simp)
  have k3 := h2 (geos.hex true ps) (by simp)
  have hpre : '\x00' ∉ "SRID=4326;".toList ++ geos.wkt ps := by
    rw [List.mem_append, not_or]; exact ⟨by decide, k1.2⟩
  have w1 : jsShow num (geomWkt geos false (.multi ps)) = utf16 (geos.wkt ps) := v8New_utf8 k1.2
  have w2 : jsShow num (geomWkt geos true (.multi ps)) = utf16 ("SRID=4326;".toList ++ geos.wkt ps) := v8New_utf8 hpre
  have w3 : jsShow num (geomHex geos false (.multi ps)) = utf16 (geos.hex false ps) := v8New_utf8 k2.2
  have w4 : jsShow num (geomHex geos true (.multi ps)) = utf16 (geos.hex true ps) := v8New_utf8 k3.2
  have hg : ((areaPolygons a g).bind fun ps => jsAreaProp a.obj ps "geom") = .ok (.geom (.multi ps)) := by
    rw [hps, bind_ok]
    simp [jsAreaProp]
  have hi : jsAreaProp a.obj [] "id" = .ok (jsNumber a.obj.id) := by simp [jsAreaProp, jsObjectProp]
  have hjson := labelledJson_ok (num := num) "geom.toArray():       " (json_polygons num ps).1 (json_polygons num ps).2
  rw [← printAll_ok]
  · unfold testgeomArea
    rw [geomShown_ok hg hjson w1 w2 w3 w4, labelled_ok _ hi (shownId hn.1 hid)]
    rfl
  · intro t ht
    rcases List.mem_append.1 ht with ht | ht
    · refine withLabels_printable (by decide) ?_ t ht
      intro t ht
      simp only [List.mem_cons, List.not_mem_nil, or_false] at ht
      rcases ht with rfl | rfl | rfl | rfl | rfl | rfl
      · exact id_ok hid
      · exact ⟨jsonPolygons_not_nul hn.1 _, by omega⟩
      · exact ⟨k1.2, by omega⟩
      · refine ⟨hpre, ?_⟩
        have : "SRID=4326;".toList.length = 10 := by decide
        rw [List.length_append]; omega
      · exact ⟨k2.2, by omega⟩
      · exact ⟨k3.2, by omega⟩
    · rw [List.mem_singleton] at ht
      subst ht
      exact printable_nil

/-- **C118** (calls).  The script prints, for all the calls it gets in their order, the lines that describe the geometry of
the object. -/
theorem testgeom_lines (geos : GeosTexts) {num : ℚ → List Char} (hn : ShortNumbers num) (cs : List WholeCall)
    (h : ∀ c ∈ cs, ShownCall geos num c) (ha : ∀ a g, .area a g ∈ cs → ∃ ps, areaPolygons a g = .ok ps) (out : List UInt8) :
    ∃ segs, List.Forall₂ (CallShown geos num) cs segs ∧
      callChain (testgeomCall geos num) out cs = .ok (out ++ printed segs.flatten) := by
  induction cs generalizing out with
  | nil => exact ⟨[], .nil, by simp [callChain, printed, utf8]⟩
  | cons c cs ih =>
    have hone : ∃ ls, CallShown geos num c ls ∧ testgeomCall geos num out c = .ok (out ++ printed ls) := by
      have hc := h c List.mem_cons_self
      have hnone : testgeomCall geos num out c = .ok out → CallShown geos num c [] →
          ∃ ls, CallShown geos num c ls ∧ testgeomCall geos num out c = .ok (out ++ printed ls) := by
        intro e1 e2
        exact ⟨[], e2, by rw [e1]; simp [printed, utf8]⟩
      rcases c with ⟨a, g⟩ | c
      · obtain ⟨ps, hps⟩ := ha a g List.mem_cons_self
        exact testgeomArea_ok geos hn hc.1 hps (hc.2 ps (areaRings_iff (a := (a, g)) hps)) out
      · cases c with
        | obj o =>
          cases o with
          | node n => exact testgeomNode_ok geos hn hc.1 hc.2 out
          | way w => exact testgeomWay_ok geos hn hc.1 hc.2.1 hc.2.2 out
          | relation r => exact hnone rfl rfl
        | _ => exact hnone rfl rfl
    obtain ⟨ls, h1, h2⟩ := hone
    obtain ⟨segs, h3, h4⟩ := ih (fun c hc => h c (List.mem_cons_of_mem _ hc))
      (fun a g hc => ha a g (List.mem_cons_of_mem _ hc)) (out ++ printed ls)
    refine ⟨ls :: segs, .cons h1 h3, ?_⟩
    rw [callChain, h2]
    simp only
    rw [h4, List.append_assoc, List.flatten_cons, printed_append]

/-- **C118** (partial as C83).  `osmjs -2 -m -l ... -j testgeom.js` for a file with nodes, ways and relations in this order,
no object twice: if GEOS throws an exception while a relation is assembled, that is the result.  Otherwise the script prints
the lines for all nodes and ways of the file in their order, the ways with the positions of their nodes, and between them
those for the areas. -/
theorem testgeom_file_partial {S T : Type} {pos : IdStore S Position} {neg : IdStore T Position}
    {okp okn : List (Nat × Position) → Prop} {up un : Nat → Res Position} {unset : Position}
    (fp : Faithful pos okp up) (fnn : Faithful neg okn un) (env : WholeEnv) (hsort : env.ringEnv.SortOk) (m : Meta)
    (ns : List Node) (ws : List Way) (rs : List Relation) (hd : DistinctObjects (fileOf ns ws rs))
    (hn : ∀ n ∈ ns, NegatableId n.obj.id) (hw : ∀ w ∈ ws, ∀ wn ∈ w.nodes, NegatableId wn.ref)
    (hokp : ∀ j, okp ((posOps (nodeCalls ns)).take j)) (hokn : ∀ j, okn ((negOps (nodeCalls ns)).take j))
    (hu : ∀ w ∈ ws, ∀ wn ∈ w.nodes, (∀ n ∈ ns, n.obj.id ≠ wn.ref) →
      (if 0 ≤ wn.ref then up wn.ref.toNat else un (-wn.ref).toNat) = .ok unset)
    (hnodes : ∀ w ∈ ws, w.nodes ≠ []) (hidw : ∀ w ∈ ws, HalfId w.obj.id)
    (hidr : ∀ r ∈ rs, HalfId r.obj.id ∧ r.obj.id ≠ 0)
    (hv : ∀ w ∈ ws, ∀ t ∈ w.obj.tags, t.value ≠ "")
    (s : Asm) (h1 : Asm.AfterPass1 mpCfg (protocol m (fileOf ns ws rs)) s)
    (hpos : ∀ n ∈ ns, |n.obj.id| ≤ 9007199254740992 ∧ n.position.WF) (hunset : unset.WF)
    (hmany : ∀ w ∈ ws, w.nodes.length ≤ 1000000)
    (geos : GeosTexts) {num : ℚ → List Char} (hnum : ShortNumbers num) :
    ∃ ws', List.Forall₂ (LocatedBy ns unset) ws ws' ∧
      ((testgeom env pos neg s geos num (protocol m (fileOf ns ws rs)) = .error geosError ∧
          ∃ r ∈ rs, IsMultipolygon r ∧ HasItsWays ws' r ∧ buildWhole env r (wayMembers ws' r) = .error geosError) ∨
       ((∀ a ∈ (ws'.filter fun w => decide (¬ InMultipolygon rs w) && decide (IsClosedArea w)).map areaOfWay ++
             (rs.filter fun r => decide (IsMultipolygon r) && decide (HasItsWays ws' r)).flatMap (areasOfRelation env ws'),
          ∀ ps, AreaRings a ps → ShownPolygons geos num ps) →
        ∃ calls segs, otherCalls calls = protocol m (fileOf ns ws' rs) ∧
          (areasIn calls).Perm
            ((ws'.filter fun w => decide (¬ InMultipolygon rs w) && decide (IsClosedArea w)).map areaOfWay ++
             (rs.filter fun r => decide (IsMultipolygon r) && decide (HasItsWays ws' r)).flatMap
              (areasOfRelation env ws')) ∧
          List.Forall₂ (CallShown geos num) calls segs ∧
          testgeom env pos neg s geos num (protocol m (fileOf ns ws rs)) = .ok (printed segs.flatten))) := by
  have small : ∀ i, HalfId i → SmallId i := by
    intro i h; unfold HalfId at h; unfold SmallId; rw [abs_lt] at h; omega
  have hsw : ∀ w ∈ ws, SmallId w.obj.id := fun w h => small _ (hidw w h)
  have hsr : ∀ r ∈ rs, SmallId r.obj.id := fun r h => small _ (hidr r h).1
  obtain ⟨ws', hl, hx⟩ := multipolygons_file_partial fp fnn env hsort m ns ws rs hd hn hw hokp hokn hu hnodes hsw hsr hv s h1
  refine ⟨ws', hl, ?_⟩
  rcases hx with ⟨e1, e2⟩ | ⟨calls, e1, -, e3, e4⟩
  · exact .inl ⟨by unfold testgeom; rw [e1], e2⟩
  right
  intro hshown
  have hback := forall₂_mem_right hl
  have hidw' : ∀ w ∈ ws', HalfId w.obj.id := fun w hw' => by
    obtain ⟨v, hv1, e⟩ := hback w hw'
    rw [e.1]; exact hidw v hv1
  have hv' : ∀ w ∈ ws', ∀ t ∈ w.obj.tags, t.value ≠ "" := fun w hw' => by
    obtain ⟨v, hv1, e⟩ := hback w hw'
    rw [e.1]; exact hv v hv1
  have hareas : ∀ a ∈ areasIn calls, |a.1.obj.id| ≤ 9007199254740992 ∧ ∃ ps, areaPolygons a.1 a.2 = .ok ps := by
    intro a ha'
    rcases List.mem_append.1 (e4.subset ha') with h | h
    · obtain ⟨w, hw', rfl⟩ := List.mem_map.1 h
      simp only [List.mem_filter, Bool.and_eq_true, decide_eq_true_eq] at hw'
      obtain ⟨v, -, hloc⟩ := hback w hw'.1
      refine ⟨?_, _, areaPolygons_way hloc hw'.2.2⟩
      have := hidw' w hw'.1
      unfold HalfId at this
      rw [abs_lt] at this
      show |w.obj.id * 2| ≤ _
      rw [abs_le]
      omega
    · obtain ⟨r, hr, h⟩ := List.mem_flatMap.1 h
      have hr := List.mem_of_mem_filter hr
      obtain ⟨ps, origin, areaId, origId, o, hg, hm, hm2⟩ := relation_areas env hsort ws' r (hsr r hr) (hidr r hr).2
        (fun w h => small _ (hidw' w h)) hv' a h
      refine ⟨?_, ps, by rw [hg]; rfl⟩
      rw [hm]
      show |areaId| ≤ _
      rw [abs_le]
      rcases hm2 with ⟨_, _, -, hi, -⟩ | ⟨w, hw', -, -, hi, -⟩
      · have := (hidr r hr).1
        unfold HalfId at this
        rw [abs_lt] at this
        split at hi <;> omega
      · have := hidw' w hw'
        unfold HalfId at this
        rw [abs_lt] at this
        omega
  have hnwf : ∀ w ∈ ws', NodesWF w.nodes ∧ w.nodes.length ≤ 1000000 := by
    intro w hw'
    obtain ⟨v, hv1, e⟩ := hback w hw'
    refine ⟨fun b hb => ?_, ?_⟩
    · obtain ⟨a, -, -, h2, h3⟩ := forall₂_mem_right e.2 b hb
      by_cases hx : ∃ n ∈ ns, n.obj.id = a.ref
      · obtain ⟨n, hn', hid⟩ := hx
        rw [h2 n hn' hid]
        exact (hpos n hn').2
      · rw [h3 fun n hn' e => hx ⟨n, hn', e⟩]
        exact hunset
    · rw [← e.2.length_eq]
      exact hmany v hv1
  obtain ⟨segs, k1, k2⟩ := testgeom_lines geos hnum calls (by
    intro c hc
    rcases c with ⟨a, g⟩ | c
    · have : (a, g) ∈ areasIn calls := List.mem_filterMap.2 ⟨_, hc, rfl⟩
      exact ⟨(hareas _ this).1, hshown _ (e4.subset this)⟩
    · cases c with
      | obj o =>
        have ho : o ∈ fileOf ns ws' rs := by
          refine protocol_obj (m := m) ?_
          rw [← e3]
          exact List.mem_filterMap.2 ⟨_, hc, rfl⟩
        unfold fileOf at ho
        simp only [List.mem_append, List.mem_map] at ho
        rcases ho with (⟨n, hn', rfl⟩ | ⟨w, hw', rfl⟩) | ⟨r, hr', rfl⟩
        · exact hpos n hn'
        · refine ⟨?_, hnwf w hw'⟩
          have := hidw' w hw'
          unfold HalfId at this
          omega
        · trivial
      | _ => trivial)
    (by
      intro a g hc
      exact (hareas (a, g) (List.mem_filterMap.2 ⟨_, hc, rfl⟩)).2) []
  refine ⟨calls, segs, e3, e4, k1, ?_⟩
  unfold testgeom
  rw [e1]
  exact k2

/-! ### Examples -/

/-- Numbers as short texts. (for the examples) -/
def shortNumber (q : ℚ) : List Char := if q.den = 1 ∧ |q.num| ≤ 9007199254740992 then intDec q.num else "0.5".toList

theorem shortNumber_ok : ShortNumbers shortNumber := by
  refine ⟨⟨?_, ?_⟩, ?_⟩
  · intro n hn
    simp [shortNumber, hn]
  · intro q c hc
    unfold shortNumber at hc
    split at hc
    · constructor <;> rintro rfl
      · exact intDec_not_nul _ hc
      · exact intDec_line _ hc
    · revert c; decide +kernel
  · intro q
    unfold shortNumber
    split
    · rename_i h
      have := intDec_short h.2
      omega
    · decide

/-- Texts of GEOS. (for the examples) -/
def sampleGeos : GeosTexts where
  wkt ps := "MULTIPOLYGON of ".toList ++ intDec ps.length
  hex srid _ := if srid then "0106000020E6".toList else "0106000000".toList

/-- A node, a closed way, one that is not closed, one without positions, and the area of the first. (for the examples) -/
def geomCalls : List WholeCall :=
  let ps : List WayNode := [⟨1, ⟨10000000, 20000000⟩⟩, ⟨2, ⟨30000000, 20000000⟩⟩, ⟨3, ⟨30000000, -40000000⟩⟩]
  let closed : Way := ⟨{ Obj.new with id := 17 }, ps ++ ps.take 1⟩
  [.call (.init (Meta.new false)), .call (.obj (.node ⟨{ Obj.new with id := 1 }, ⟨10000000, 20000000⟩⟩)), .call (.obj (.way closed)),
   .area (areaOfWay closed).1 (areaOfWay closed).2, .call (.obj (.way ⟨{ Obj.new with id := 18 }, ps.take 2⟩)),
   .call (.obj (.way ⟨{ Obj.new with id := -19 }, [⟨8, .undef⟩]⟩)), .call .final]

/-- The hypotheses of `testgeom_lines` can be met. -/
example : ShortNumbers shortNumber ∧ (∀ c ∈ geomCalls, ShownCall sampleGeos shortNumber c) ∧
    (∀ a g, .area a g ∈ geomCalls → ∃ ps, areaPolygons a g = .ok ps) := by
  refine ⟨shortNumber_ok, ?_, ?_⟩
  · intro c hc
    simp only [geomCalls, List.mem_cons, List.not_mem_nil, or_false] at hc
    rcases hc with rfl | rfl | rfl | rfl | rfl | rfl | rfl
    · trivial
    · exact ⟨by decide, by simp only [Position.WF]; decide⟩
    · exact ⟨by decide, by unfold NodesWF Position.WF; decide, by decide⟩
    · refine ⟨by decide +kernel, fun ps hps => ?_⟩
      obtain rfl : ps = [(([⟨10000000, 20000000⟩, ⟨30000000, 20000000⟩, ⟨30000000, -40000000⟩, ⟨10000000, 20000000⟩] : Coords),
        [])] := by
        simpa [areaOfWay, AreaRings] using hps
      exact ⟨by decide +kernel, by decide +kernel⟩
    · exact ⟨by decide, by unfold NodesWF Position.WF; decide, by decide⟩
    · exact ⟨by decide, by unfold NodesWF Position.WF; decide, by decide⟩
    · trivial
  · intro a g h
    simp only [geomCalls, List.mem_cons, List.not_mem_nil, or_false, reduceCtorEq, false_or, WholeCall.area.injEq] at h
    obtain ⟨rfl, rfl⟩ := h
    exact ⟨_, rfl⟩

/-- What is printed for the node. -/
example : (callChain (testgeomCall sampleGeos shortNumber) [] (geomCalls.take 2)).toOption = some (printed ([
    "node id:              1",
    "geom.lon:             1",
    "geom.lat:             2",
    "geom.toArray():       [1,2]",
    "geom.toWKT():         POINT(1 2)",
    "geom.toWKT(true):     SRID=4326;POINT(1 2)",
    "geom.toHexWKB():      0101000000000000000000F03F0000000000000040",
    "geom.toHexWKB(true):  0101000020E6100000000000000000F03F0000000000000040",
    ""].map String.toList)) := by
  decide +kernel

/-- What is printed for the area. -/
example : (callChain (testgeomCall sampleGeos shortNumber) [] ((geomCalls.drop 3).take 1)).toOption = some (printed ([
    "area id:              34",
    "geom.toArray():       [[[[1,2],[3,2],[3,-4],[1,2]]]]",
    "geom.toWKT():         MULTIPOLYGON of 1",
    "geom.toWKT(true):     SRID=4326;MULTIPOLYGON of 1",
    "geom.toHexWKB():      0106000000",
    "geom.toHexWKB(true):  0106000020E6",
    ""].map String.toList)) := by
  decide +kernel

/-- What is printed for the way that is not closed. -/
example : (callChain (testgeomCall sampleGeos shortNumber) [] ((geomCalls.drop 4).take 1)).toOption = some (printed ([
    "way id:               18",
    "geom.toArray():       [[1,2],[3,2]]",
    "geom.toWKT():         LINESTRING(1 2,3 2)",
    "geom.toWKT(true):     SRID=4326;LINESTRING(1 2,3 2)",
    "geom.toHexWKB():      010200000002000000000000000000F03F000000000000004000000000000008400000000000000040",
    "geom.toHexWKB(true):  0102000020E610000002000000000000000000F03F000000000000004000000000000008400000000000000040",
    "reverse_geom.toWKT(): LINESTRING(3 2,1 2)",
    "polygon_geom.toWKT(): undefined",
    ""].map String.toList)) := by
  decide +kernel

/-- What is printed for the way without positions. -/
example : (callChain (testgeomCall sampleGeos shortNumber) [] (geomCalls.drop 5)).toOption = some (printed ([
    "way id:               -19",
    "geom.toArray():       undefined",
    "geom.toWKT():         undefined",
    "geom.toWKT(true):     undefined",
    "geom.toHexWKB():      undefined",
    "geom.toHexWKB(true):  undefined",
    "reverse_geom.toWKT(): undefined",
    "polygon_geom.toWKT(): undefined",
    ""].map String.toList)) := by
  decide +kernel

/-- The hypotheses of `testgeom_file_partial` that `area_script_partial` does not have can be met. -/
example : (∀ n ∈ pipeNodes, |n.obj.id| ≤ 9007199254740992 ∧ n.position.WF) ∧ Position.undef.WF ∧
    (∀ w ∈ pipeWays, w.nodes.length ≤ 1000000) := by
  refine ⟨?_, ?_, ?_⟩
  · unfold Position.WF; decide +kernel
  · unfold Position.WF; decide
  · decide +kernel

end Osmium
