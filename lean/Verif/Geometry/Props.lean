import Verif.Geometry.Model
import Verif.Geometry.Spec

/-
C54-C56: WKB, hex WKB and WKT describe exactly the geometry.
-/
namespace Osmium
open Spec Text

namespace Spec

/-- All coordinates are 32 bit numbers. -/
def NodesWF (nodes : List WayNode) : Prop := ∀ n ∈ nodes, n.position.WF

/-- The doubles of a position. -/
def xy (p : Position) : ℚ × ℚ := (fixToDouble p.x, fixToDouble p.y)

/-- The exact coordinates of a position in degrees. -/
def degrees (p : Position) : ℚ × ℚ := ((p.x : ℚ) / 10000000, (p.y : ℚ) / 10000000)

/-- The positions of the nodes in the direction wanted. -/
def inDirection (reverse : Bool) (nodes : List WayNode) : List Position :=
  if reverse then (nodes.map (·.position)).reverse else nodes.map (·.position)

end Spec

/-! ### C54 -/

theorem wkbU32_write (n : Nat) (h : n < 4294967296) (rest : List UInt8) :
    wkbU32 (writeBinary 4 n ++ rest) = some (n, rest) := by
  have hl : (writeBinary 4 n).length = 4 := leBytes_length _ _
  unfold wkbU32
  rw [if_pos (by rw [List.length_append, hl]; omega), List.take_left' hl, List.drop_left' hl]
  unfold writeBinary
  rw [leVal_leBytes _ _ (by norm_num; omega)]
  congr 2
  norm_num
  omega

theorem wkbDouble_write (x : ℤ) (h : InS32 x) (rest : List UInt8) :
    wkbDouble (writeBinaryDouble (fixToDouble x) ++ rest) = some (fixToDouble x, rest) := by
  have hl : (writeBinaryDouble (fixToDouble x)).length = 8 := leBytes_length _ _
  obtain ⟨h1, h2⟩ := ieeeVal_fix x h
  unfold wkbDouble
  rw [if_pos (by rw [List.length_append, hl]; omega), List.take_left' hl, List.drop_left' hl]
  unfold writeBinaryDouble
  rw [leVal_leBytes _ _ (by norm_num; exact h1), h2]
  rfl

theorem wkbXY_write (p : Position) (h : p.WF) (rest : List UInt8) :
    wkbXY (writeBinaryDouble p.lon ++ writeBinaryDouble p.lat ++ rest) = some (xy p, rest) := by
  unfold wkbXY Position.lon Position.lat
  rw [List.append_assoc, wkbDouble_write _ h.1]
  simp only
  rw [wkbDouble_write _ h.2]
  rfl

theorem wkbXYs_write (nodes : List WayNode) (h : NodesWF nodes) (rest : List UInt8) :
    wkbXYs nodes.length (wkbNodes nodes ++ rest) = some (nodes.map (fun n => xy n.position), rest) := by
  induction nodes with
  | nil => rfl
  | cons n ns ih =>
    have e : wkbNodes (n :: ns) ++ rest = writeBinaryDouble n.position.lon ++ writeBinaryDouble n.position.lat ++
        (wkbNodes ns ++ rest) := by simp [wkbNodes]
    rw [e, List.length_cons, wkbXYs, wkbXY_write _ (h n (by simp))]
    simp only
    rw [ih (fun m hm => h m (by simp [hm]))]
    rfl

theorem wkbPointList_write (nodes : List WayNode) (h : NodesWF nodes) (hl : nodes.length < 4294967296) (rest : List UInt8) :
    wkbPointList (writeBinary 4 nodes.length ++ (wkbNodes nodes ++ rest)) =
      some (nodes.map (fun n => xy n.position), rest) := by
  unfold wkbPointList
  rw [wkbU32_write _ hl]
  exact wkbXYs_write nodes h rest

theorem wkbDecode_header (srid : Bool) (type : Nat) (hty : type = 1 ∨ type = 2 ∨ type = 3) (body : List UInt8)
    (g : GeoValue) (h : wkbBody type body = some (g, [])) :
    wkbDecode (writeBinaryWkbHeader srid type ++ body) = some (if srid then some 4326 else none, g) := by
  unfold writeBinaryWkbHeader
  have e1 : writeBinary 1 wkbNDR = [1] := by decide
  rw [e1]
  cases srid with
  | false =>
    simp only [Bool.false_eq_true, if_false, List.append_assoc, List.singleton_append, List.cons_append, List.nil_append, wkbDecode]
    rw [wkbU32_write _ (by omega)]
    simp only
    rw [if_neg (by omega), h]
  | true =>
    simp only [if_true, List.append_assoc, List.singleton_append, List.cons_append, List.nil_append, wkbDecode]
    have e2 : type ||| wkbSRID = type + 536870912 := by rcases hty with rfl | rfl | rfl <;> decide
    rw [e2, wkbU32_write _ (by omega)]
    simp only
    have e3 : type + 536870912 - 536870912 = type := by omega
    have e4 : geometrySrid < 4294967296 := by decide
    rw [if_pos (by omega), e3, wkbU32_write _ e4]
    simp only [h]
    rfl

/-- C54, points. -/
theorem point_wkb_decodes (p : Position) (h : p.WF) (srid : Bool) :
    wkbDecode (pointWkb p srid) = some (if srid then some 4326 else none, .point (xy p)) := by
  unfold pointWkb
  rw [List.append_assoc]
  apply wkbDecode_header _ _ (by decide)
  have := wkbXY_write p h []
  rw [List.append_nil] at this
  simp [wkbBody, wkbPoint, this]

theorem map_reverse_position {α : Type} (f : Position → α) (nodes : List WayNode) (r : Bool) :
    (if r then nodes.reverse else nodes).map (fun n => f n.position) = (inDirection r nodes).map f := by
  unfold inDirection
  cases r <;> simp [Function.comp_def]

/-- C54, line strings. -/
theorem line_wkb_decodes (g : FromWay) (h : NodesWF g.nodes) (hl : g.nodes.length < 4294967296) (srid : Bool) :
    wkbDecode (lineWkb g srid) =
      some (if srid then some 4326 else none, .line ((inDirection g.reverse g.nodes).map xy)) := by
  unfold lineWkb
  rw [List.append_assoc]
  apply wkbDecode_header _ _ (by decide)
  have e : (if g.reverse = true then wkbNodes g.nodes.reverse else wkbNodes g.nodes) =
      wkbNodes (if g.reverse then g.nodes.reverse else g.nodes) := by split <;> rfl
  have hwf : NodesWF (if g.reverse then g.nodes.reverse else g.nodes) := by
    intro n hn; apply h; split at hn <;> simpa using hn
  have hlen : (if g.reverse then g.nodes.reverse else g.nodes).length = g.nodes.length := by split <;> simp
  have := wkbPointList_write (if g.reverse then g.nodes.reverse else g.nodes) hwf (by rw [hlen]; exact hl) []
  rw [List.append_nil, hlen] at this
  rw [e]
  simp [wkbBody, wkbLineString, this, map_reverse_position]

/-- C54, polygons: the nodes in the order of the way. -/
theorem polygon_wkb_decodes (g : FromWay) (h : NodesWF g.nodes) (hl : g.nodes.length < 4294967296) (srid : Bool) :
    wkbDecode (polygonWkb g srid) =
      some (if srid then some 4326 else none, .polygon [(inDirection false g.nodes).map xy]) := by
  unfold polygonWkb
  rw [List.append_assoc, List.append_assoc]
  apply wkbDecode_header _ _ (by decide)
  have := wkbPointList_write g.nodes h hl []
  rw [List.append_nil] at this
  simp only [wkbBody, wkbPolygon, show ¬ (3 = 1) by decide, show ¬ (3 = 2) by decide, if_false, if_true]
  rw [wkbU32_write _ (by decide)]
  simp only [wkbRings, this]
  simp [inDirection, Function.comp_def]

theorem writeHexByte_eq (b : UInt8) : writeHexByte b = [hexDigit (b.toNat / 16), hexDigit (b.toNat % 16)] := by
  have key : ∀ n : Fin 256, writeHexByte (UInt8.ofNat n) = [hexDigit (n / 16), hexDigit (n % 16)] := by
    decide +kernel
  have := key ⟨b.toNat, b.toNat_lt⟩
  simpa using this

theorem writeHex_dump (k n : Nat) : writeHex k n = hexDump (writeBinary k n) := by
  unfold writeHex hexDump writeBinary
  congr 1
  funext b
  exact writeHexByte_eq b

theorem writeHexDouble_dump (q : ℚ) : writeHexDouble q = hexDump (writeBinaryDouble q) := by
  unfold writeHexDouble hexDump writeBinaryDouble
  congr 1
  funext b
  exact writeHexByte_eq b

theorem hexDump_append (a b : List UInt8) : hexDump (a ++ b) = hexDump a ++ hexDump b := by
  simp [hexDump]

theorem writeHexWkbHeader_dump (srid : Bool) (t : Nat) :
    writeHexWkbHeader srid t = hexDump (writeBinaryWkbHeader srid t) := by
  unfold writeHexWkbHeader writeBinaryWkbHeader
  cases srid <;> simp [writeHex_dump, hexDump_append]

theorem hexWkbNodes_dump (nodes : List WayNode) : hexWkbNodes nodes = hexDump (wkbNodes nodes) := by
  induction nodes with
  | nil => rfl
  | cons n ns ih =>
    unfold hexWkbNodes wkbNodes at *
    rw [List.flatMap_cons, List.flatMap_cons, hexDump_append, ih, hexDump_append, writeHexDouble_dump, writeHexDouble_dump]

/-- C54: the hex forms are the hex dumps of the binary forms. -/
theorem hex_wkb_is_dump (p : Position) (g : FromWay) (srid : Bool) :
    pointHexWkb p srid = hexDump (pointWkb p srid) ∧
    lineHexWkb g srid = hexDump (lineWkb g srid) ∧
    polygonHexWkb g srid = hexDump (polygonWkb g srid) := by
  refine ⟨?_, ?_, ?_⟩
  · simp [pointHexWkb, pointWkb, hexDump_append, writeHexWkbHeader_dump, writeHexDouble_dump]
  · unfold lineHexWkb lineWkb
    cases g.reverse <;> simp [hexDump_append, writeHexWkbHeader_dump, writeHex_dump, hexWkbNodes_dump]
  · simp [polygonHexWkb, polygonWkb, hexDump_append, writeHexWkbHeader_dump, writeHex_dump, hexWkbNodes_dump]

/-- A way with three nodes. -/
def exampleTriangle : List WayNode :=
  [⟨1, ⟨0, 0⟩⟩, ⟨2, ⟨15000000, -2500000⟩⟩, ⟨3, ⟨1, 1790000000⟩⟩, ⟨1, ⟨0, 0⟩⟩]

theorem exampleTriangle_wf : NodesWF exampleTriangle := by
  intro n hn
  simp only [exampleTriangle, List.mem_cons, List.not_mem_nil, or_false] at hn
  rcases hn with rfl | rfl | rfl | rfl <;> (constructor <;> (unfold InS32; decide))

example : wkbDecode (lineWkb ⟨7, exampleTriangle, true⟩ true) =
    some (some 4326, .line [xy ⟨0, 0⟩, xy ⟨1, 1790000000⟩, xy ⟨15000000, -2500000⟩, xy ⟨0, 0⟩]) :=
  line_wkb_decodes _ exampleTriangle_wf (by decide) true

/-! ### C55 -/

/-- The text of the list of coordinates. -/
def lonLatText (p : Position) : List Char := fmtG10 p.lon ++ ' ' :: fmtG10 p.lat

theorem lonLatList_eq (out : List Char) (ps : List Position) :
    lonLatList out ps = out ++ ((ps.map lonLatText).intersperse [',']).flatten := by
  have gen : ∀ (ps : List Position) (out : List Char),
      (ps.foldl lonLatWriter (out, false)).1 = out ++ (ps.map fun p => ',' :: lonLatText p).flatten := by
    intro ps
    induction ps with
    | nil => intro out; simp
    | cons p ps ih =>
      intro out
      rw [List.foldl_cons]
      have : lonLatWriter (out, false) p = (out ++ ',' :: lonLatText p, false) := by simp [lonLatWriter, lonLatText]
      rw [this, ih]
      simp
  unfold lonLatList
  cases ps with
  | nil => simp
  | cons p ps =>
    rw [List.foldl_cons]
    have : lonLatWriter (out, true) p = (out ++ lonLatText p, false) := by simp [lonLatWriter, lonLatText]
    rw [this, gen]
    clear this gen
    induction ps generalizing out p with
    | nil => simp
    | cons q qs ih =>
      have := ih [] q
      simp only [List.nil_append] at this
      rw [List.map_cons, List.flatten_cons, List.map_cons, List.map_cons, List.intersperse_cons₂]
      simp only [List.flatten_cons]
      rw [List.map_cons] at this
      rw [← this]
      simp

/-- The exact text of each geometry. -/
theorem wkt_text (p : Position) (g : FromWay) (srid : Bool) :
    pointWkt p srid = (if srid then "SRID=4326;".toList else []) ++ "POINT(".toList ++ lonLatText p ++ [')'] ∧
    lineWkt g srid = (if srid then "SRID=4326;".toList else []) ++ "LINESTRING(".toList ++
      (((inDirection g.reverse g.nodes).map lonLatText).intersperse [',']).flatten ++ [')'] ∧
    polygonWkt g srid = (if srid then "SRID=4326;".toList else []) ++ "POLYGON((".toList ++
      (((inDirection false g.nodes).map lonLatText).intersperse [',']).flatten ++ [')', ')'] := by
  refine ⟨?_, ?_, ?_⟩
  · simp only [pointWkt, lonLatText, sridPrefix, List.append_assoc, List.cons_append, List.nil_append]
  · unfold lineWkt inDirection
    simp only [lonLatList_eq, sridPrefix]
    cases g.reverse with
    | true => simp only [if_true, List.map_reverse, List.append_assoc]
    | false => simp only [Bool.false_eq_true, if_false, List.append_assoc]
  · simp only [polygonWkt, lonLatList_eq, sridPrefix, inDirection, Bool.false_eq_true, if_false]

theorem dropPre_append (p s : List Char) : dropPre p (p ++ s) = some s := by
  induction p with
  | nil => rfl
  | cons c cs ih => simp [dropPre, ih]

theorem dropSuf_append (p s : List Char) : dropSuf p (s ++ p) = some s := by
  simp [dropSuf, dropPre_append]

theorem splitOn_none (sep : Char) (s : List Char) (h : ∀ c ∈ s, c ≠ sep) : splitOn sep s = [s] := by
  induction s with
  | nil => rfl
  | cons c cs ih =>
    simp [splitOn, h c (by simp), ih (fun d hd => h d (by simp [hd]))]

theorem splitOn_append (sep : Char) (s rest : List Char) (h : ∀ c ∈ s, c ≠ sep) :
    splitOn sep (s ++ sep :: rest) = s :: splitOn sep rest := by
  induction s with
  | nil => simp [splitOn]
  | cons c cs ih =>
    simp [splitOn, h c (by simp), ih (fun d hd => h d (by simp [hd]))]

theorem splitOn_intersperse (sep : Char) (l : List (List Char)) (hne : l ≠ []) (h : ∀ s ∈ l, ∀ c ∈ s, c ≠ sep) :
    splitOn sep (l.intersperse [sep]).flatten = l := by
  induction l with
  | nil => exact absurd rfl hne
  | cons s l ih =>
    cases l with
    | nil => simpa using splitOn_none sep s (h s (by simp))
    | cons t l =>
      rw [List.intersperse_cons₂]
      simp only [List.flatten_cons, List.singleton_append]
      rw [splitOn_append _ _ _ (h s (by simp)), ih (by simp) (fun u hu => h u (by simp [hu]))]

theorem fmtG10_ne (x : ℤ) (h : InS32 x) : fmtG10 (fixToDouble x) ≠ [] := by
  intro e
  unfold fmtG10 at e
  split at e
  · simp at e
  · obtain ⟨c, cs, hc, _⟩ := gText_head (sig10 |fixToDouble x|).1 (sig10 |fixToDouble x|).2
    rw [hc] at e
    simp at e

theorem wktNumber_fmt (x : ℤ) (h : InS32 x) : wktNumber (fmtG10 (fixToDouble x)) = some ((x : ℚ) / 10000000) := by
  unfold wktNumber
  rw [if_pos ⟨fmtG10_ne x h, List.all_eq_true.2 (fmtG10_chars _)⟩, strtodVal_fmtG10 x h]

theorem isNumChar_ne {c d : Char} (hd : isNumChar d = false) (h : isNumChar c = true) : c ≠ d := by
  rintro rfl; rw [h] at hd; exact absurd hd (by simp)

theorem wktXY_text (p : Position) (h : p.WF) : wktXY (lonLatText p) = some (degrees p) := by
  unfold wktXY lonLatText Position.lon Position.lat
  rw [splitOn_append _ _ _ (fun c hc => isNumChar_ne (by decide) (fmtG10_chars _ c hc)),
    splitOn_none _ _ (fun c hc => isNumChar_ne (by decide) (fmtG10_chars _ c hc))]
  simp only [wktNumber_fmt _ h.1, wktNumber_fmt _ h.2]
  rfl

theorem wktXYs_text (ps : List Position) (hne : ps ≠ []) (h : ∀ p ∈ ps, p.WF) :
    wktXYs ((ps.map lonLatText).intersperse [',']).flatten = some (ps.map degrees) := by
  unfold wktXYs
  rw [splitOn_intersperse]
  · rw [List.map_map]
    clear hne
    induction ps with
    | nil => rfl
    | cons p ps ih =>
      rw [List.map_cons, List.map_cons, Function.comp, wktXY_text _ (h p (by simp)), allSome]
      rw [ih (fun q hq => h q (by simp [hq]))]
      rfl
  · simpa using hne
  · intro s hs c hc
    obtain ⟨p, _, rfl⟩ := List.mem_map.1 hs
    unfold lonLatText at hc
    rcases List.mem_append.1 hc with h1 | h1
    · exact isNumChar_ne (by decide) (fmtG10_chars _ c h1)
    · rcases List.mem_cons.1 h1 with rfl | h1
      · decide
      · exact isNumChar_ne (by decide) (fmtG10_chars _ c h1)

theorem wktDecode_srid (srid : Bool) (s : List Char) (g : GeoValue) (h : wktBody s = some g)
    (hs : dropPre "SRID=4326;".toList s = none) :
    wktDecode ((if srid then "SRID=4326;".toList else []) ++ s) = some (srid, g) := by
  unfold wktDecode
  cases srid with
  | true => simp only [if_true]; rw [dropPre_append]; simp [h]
  | false => simp only [Bool.false_eq_true, if_false, List.nil_append]; rw [hs]; simp [h]

/-- C55, points: reading the text gives the exact coordinates. -/
theorem point_wkt_decodes (p : Position) (h : p.WF) (srid : Bool) :
    wktDecode (pointWkt p srid) = some (srid, .point (degrees p)) := by
  rw [(wkt_text p ⟨0, [], false⟩ srid).1, List.append_assoc, List.append_assoc]
  apply wktDecode_srid
  · unfold wktBody
    rw [dropPre_append]
    simp only [Option.bind_some, dropSuf_append, wktXY_text p h, Option.map_some]
  · rfl

/-- C55, line strings. -/
theorem line_wkt_decodes (g : FromWay) (h : NodesWF g.nodes) (hne : g.nodes ≠ []) (srid : Bool) :
    wktDecode (lineWkt g srid) = some (srid, .line ((inDirection g.reverse g.nodes).map degrees)) := by
  rw [(wkt_text ⟨0, 0⟩ g srid).2.1, List.append_assoc, List.append_assoc]
  have hp : ∀ p ∈ inDirection g.reverse g.nodes, p.WF := by
    intro p hp
    have : p ∈ g.nodes.map (·.position) := by
      unfold inDirection at hp; split at hp
      · exact List.mem_reverse.1 hp
      · exact hp
    obtain ⟨n, hn, rfl⟩ := List.mem_map.1 this
    exact h n hn
  have hn : inDirection g.reverse g.nodes ≠ [] := by
    unfold inDirection; split <;> simpa using hne
  apply wktDecode_srid
  · unfold wktBody
    have e1 : ∀ s, dropPre "POINT(".toList ("LINESTRING(".toList ++ s) = none := fun s => rfl
    rw [e1, dropPre_append]
    simp only [Option.bind_some, Option.bind_none, dropSuf_append, wktXYs_text _ hn hp, Option.map_some]
  · rfl

/-- C55, polygons: the nodes in the order of the way. -/
theorem polygon_wkt_decodes (g : FromWay) (h : NodesWF g.nodes) (hne : g.nodes ≠ []) (srid : Bool) :
    wktDecode (polygonWkt g srid) = some (srid, .polygon [(inDirection false g.nodes).map degrees]) := by
  rw [(wkt_text ⟨0, 0⟩ g srid).2.2, List.append_assoc, List.append_assoc]
  have hp : ∀ p ∈ inDirection false g.nodes, p.WF := by
    intro p hp
    obtain ⟨n, hn, rfl⟩ := List.mem_map.1 hp
    exact h n hn
  have hn : inDirection false g.nodes ≠ [] := by
    unfold inDirection; simpa using hne
  apply wktDecode_srid
  · unfold wktBody
    have e1 : ∀ s, dropPre "POINT(".toList ("POLYGON((".toList ++ s) = none := fun s => rfl
    have e2 : ∀ s, dropPre "LINESTRING(".toList ("POLYGON((".toList ++ s) = none := fun s => rfl
    rw [e1, e2, dropPre_append]
    simp only [Option.bind_some, Option.bind_none, dropSuf_append, wktXYs_text _ hn hp, Option.map_some]
  · rfl

/-- A line string without nodes is written with empty brackets, which no reader of WKT takes for a line
string (`LINESTRING EMPTY` would be right). -/
theorem line_wkt_empty (id : Int) (reverse : Bool) :
    lineWkt ⟨id, [], reverse⟩ false = "LINESTRING()".toList ∧ wktDecode (lineWkt ⟨id, [], reverse⟩ false) = none := by
  have e : lineWkt ⟨id, [], reverse⟩ false = "LINESTRING()".toList := by
    cases reverse <;> rfl
  exact ⟨e, by rw [e]; decide +kernel⟩

/-- The actual text of the example, with one coordinate in exponent notation. -/
example : lineWkt ⟨7, exampleTriangle, false⟩ false = "LINESTRING(0 0,1.5 -0.25,1e-07 179,0 0)".toList := by
  rw [(wkt_text ⟨0, 0⟩ _ _).2.1]
  simp only [exampleTriangle, inDirection, List.map_cons, List.map_nil, lonLatText, Position.lon, Position.lat,
    Bool.false_eq_true, if_false]
  rw [fmtG10_fix 0 (by unfold InS32; decide), fmtG10_fix 15000000 (by unfold InS32; decide),
    fmtG10_fix (-2500000) (by unfold InS32; decide), fmtG10_fix 1 (by unfold InS32; decide),
    fmtG10_fix 1790000000 (by unfold InS32; decide)]
  decide +kernel

example : wktDecode (lineWkt ⟨7, exampleTriangle, false⟩ false) =
    some (false, .line [(0, 0), (15/10, -25/100), (1/10000000, 179), (0, 0)]) := by
  rw [line_wkt_decodes _ exampleTriangle_wf (by decide)]
  decide +kernel

/-! ### C56 -/

/-- C56: a polygon can be made of a list of nodes exactly if it is closed; without nodes the behaviour is
undefined. -/
theorem polygon_from_way (nodes : List WayNode) (reverse : Bool) (id : Int) :
    (nodes = [] → Polygon.new nodes reverse id = .error .ub) ∧
    (∀ f l, nodes.head? = some f → nodes.getLast? = some l → f.ref = l.ref →
      Polygon.new nodes reverse id = .ok ⟨id, nodes, reverse⟩) ∧
    (∀ f l, nodes.head? = some f → nodes.getLast? = some l → f.ref ≠ l.ref →
      Polygon.new nodes reverse id = .error (.exn "RingNotClosed")) := by
  refine ⟨?_, ?_, ?_⟩
  · rintro rfl; rfl
  · intro f l hf hl he
    simp [Polygon.new, wayNodesIsClosed, hf, hl, he]
  · intro f l hf hl he
    have : (f.ref == l.ref) = false := by simpa using he
    simp [Polygon.new, wayNodesIsClosed, hf, hl, this]

/-- C56: the direction is as requested for line strings in all formats and for polygons in GEOS and OGR
(shapefiles: `shp_points`). Missing: polygons in WKT and WKB, which have the original direction always
(`polygon_wkt_ignores_reverse`). -/
theorem direction_respected_partial (g : FromWay) :
    geosLine g = (inDirection g.reverse g.nodes).map xy ∧ ogrLine g = (inDirection g.reverse g.nodes).map xy ∧
    geosPolygon g = (inDirection g.reverse g.nodes).map xy ∧ ogrPolygon g = (inDirection g.reverse g.nodes).map xy := by
  have e : ∀ p : Position, coordinate p = xy p := fun _ => rfl
  unfold geosLine ogrLine geosPolygon ogrPolygon inDirection
  cases g.reverse <;> simp [e, Function.comp_def]

/-- C56 fails: a polygon requested in reverse direction is written in the original direction. -/
theorem polygon_wkt_ignores_reverse :
    Polygon.new exampleTriangle true 7 = .ok ⟨7, exampleTriangle, true⟩ ∧
    wktDecode (polygonWkt ⟨7, exampleTriangle, true⟩ false) ≠
      some (false, .polygon [(inDirection true exampleTriangle).map degrees]) ∧
    wkbDecode (polygonWkb ⟨7, exampleTriangle, true⟩ false) ≠
      some (none, .polygon [(inDirection true exampleTriangle).map xy]) := by
  refine ⟨rfl, ?_, ?_⟩
  · rw [polygon_wkt_decodes _ exampleTriangle_wf (by simp [exampleTriangle])]
    decide +kernel
  · rw [polygon_wkb_decodes _ exampleTriangle_wf (by decide)]
    intro h
    simp only [Bool.false_eq_true, if_false, Option.some.injEq, Prod.mk.injEq, true_and, GeoValue.polygon.injEq,
      List.cons.injEq, and_true, inDirection, exampleTriangle, List.map_cons, List.map_nil, xy] at h
    have h1 : fixToDouble 15000000 = fixToDouble 1 := by
      simp [xy] at h; exact h.1.1
    have h2 := congrArg doubleToFix h1
    rw [fix_double_fix _ (by unfold InS32; decide), fix_double_fix _ (by unfold InS32; decide)] at h2
    exact absurd h2 (by decide)

end Osmium
