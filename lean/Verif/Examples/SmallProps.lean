import Verif.Examples.Small

/-
Properties C88 and C89: what osmium_find_bbox and osmium_time print.
-/
namespace Osmium
open Spec Text

namespace Spec

/-- The text `t` is a number that differs from the coordinate `x` (in 10^-7 degrees) by less than `err` degrees. -/
def Approximates (t : Line) (x : Int) (err : ℚ) : Prop :=
  ∃ v, strtodVal t = some v ∧ |v - (x : ℚ) / 10000000| < err

/-- The line is a box with (about) these sides. -/
def BoxLine (line : Line) (minx miny maxx maxy : Int) (err : ℚ) : Prop :=
  ∃ t1 t2 t3 t4, line = txt "minlon=" ++ t1 ++ txt " minlat=" ++ t2 ++ txt " maxlon=" ++ t3 ++ txt " maxlat=" ++ t4 ∧
    Approximates t1 minx err ∧ Approximates t2 miny err ∧ Approximates t3 maxx err ∧ Approximates t4 maxy err

/-- How many nodes, ways and relations there are. -/
def countNodes (os : List OsmObj) : Nat := (os.filter fun o => o.type = .node).length
/-- (see `countNodes`) -/
def countWays (os : List OsmObj) : Nat := (os.filter fun o => o.type = .way).length
/-- (see `countNodes`) -/
def countRelations (os : List OsmObj) : Nat := (os.filter fun o => o.type = .relation).length

end Spec

/-! ### osmium_find_bbox -/

theorem fmtG_coordinate (x : Int) (h : InS32 x) : Approximates (fmtG 5 (fixToDouble x)) x (501 / 1000000) := by
  obtain ⟨v, h1, h2⟩ := strtodVal_fmtG 5 (fixToDouble x)
  refine ⟨v, h1, ?_⟩
  have herr := fl_err ((x : ℚ) / coordinatePrecision)
  have hx : |(x : ℚ) / 10000000| ≤ 215 := by
    rw [abs_le]
    unfold InS32 at h
    have a : (-2147483648 : ℚ) ≤ x := by exact_mod_cast h.1
    have b : (x : ℚ) ≤ 2147483647 := by exact_mod_cast h.2
    constructor <;> linarith
  have he : |fixToDouble x - (x : ℚ) / 10000000| ≤ 1 / 1000000000 := by
    unfold fixToDouble
    have e : coordinatePrecision = 10000000 := rfl
    rw [e] at herr ⊢
    refine le_trans herr ?_
    unfold ulp
    have := abs_nonneg ((x : ℚ) / 10000000)
    nlinarith
  have hd : |fixToDouble x| < 1000 := by
    have := abs_sub_abs_le_abs_sub (fixToDouble x) ((x : ℚ) / 10000000)
    linarith
  have hlog : (10 : ℚ) ^ (Int.log 10 |fixToDouble x| - (5 : ℕ)) ≤ 1 / 1000 := by
    have hl : Int.log 10 |fixToDouble x| ≤ 2 := by
      by_cases h0 : |fixToDouble x| = 0
      · rw [h0, Int.log_zero_right]; omega
      · have hp : 0 < |fixToDouble x| := lt_of_le_of_ne (abs_nonneg _) (Ne.symm h0)
        have := (Int.lt_zpow_iff_log_lt (b := 10) (by norm_num) hp (x := 3)).1 (by
          have : ((10 : ℕ) : ℚ) ^ (3 : ℤ) = 1000 := by norm_num
          rw [this]
          exact hd)
        omega
    have := zpow_le_zpow_right₀ (a := (10 : ℚ)) (by norm_num) (show Int.log 10 |fixToDouble x| - (5 : ℕ) ≤ -3 by push_cast; omega)
    refine le_trans this ?_
    norm_num
  have := abs_sub_le v (fixToDouble x) ((x : ℚ) / 10000000)
  linarith

/-- C88: for a file that begins with its nodes (one at least, all at places) the program prints the smallest box with
all nodes in it, up to 0.000501 degrees. -/
theorem find_bbox_partial (m : Meta) (ns rest : List OsmObj) (hn : ∀ o ∈ ns, o.type = .node)
    (hr : ∀ o ∈ rest, o.type ≠ .node) (hne : ns ≠ [])
    (hp : ∀ p ∈ nodePositions (ns ++ rest), p.defined = true ∧ InS32 p.x ∧ InS32 p.y) :
    ∃ minx miny maxx maxy, IsMinOf Position.x (nodePositions (ns ++ rest)) minx ∧
      IsMinOf Position.y (nodePositions (ns ++ rest)) miny ∧
      IsMaxOf Position.x (nodePositions (ns ++ rest)) maxx ∧ IsMaxOf Position.y (nodePositions (ns ++ rest)) maxy ∧
      BoxLine (findBboxMain (protocol m (ns ++ rest))) minx miny maxx maxy (501 / 1000000) := by
  have e := nodesBeforeEnd_protocol m ns rest hn hr
  have hne' : nodesBeforeEnd (protocol m (ns ++ rest)) ≠ [] := by
    rw [e]
    obtain ⟨o, ns', rfl⟩ := List.exists_cons_of_ne_nil hne
    have ho := hn o (by simp)
    cases o with
    | node n => simp [nodePositions]
    | way w => cases ho
    | relation r => cases ho
  obtain ⟨-, h1, h2, h3, h4⟩ := findBbox_hull (protocol m (ns ++ rest)) hne' (by rw [e]; exact fun p h => (hp p h).1)
  rw [e] at h1 h2 h3 h4
  have mn : ∀ {f : Position → Int} {v : Int}, IsMinOf f (nodePositions (ns ++ rest)) v →
      ∃ p ∈ nodePositions (ns ++ rest), f p = v := fun h => by
    obtain ⟨p, hp, e⟩ := h.1
    exact ⟨p, hp, e⟩
  have mx : ∀ {f : Position → Int} {v : Int}, IsMaxOf f (nodePositions (ns ++ rest)) v →
      ∃ p ∈ nodePositions (ns ++ rest), f p = v := fun h => by
    obtain ⟨p, hp, e⟩ := h.1
    exact ⟨p, hp, e⟩
  refine ⟨_, _, _, _, h1, h2, h3, h4, _, _, _, _, rfl, ?_, ?_, ?_, ?_⟩
  · obtain ⟨p, q1, q2⟩ := mn h1
    exact fmtG_coordinate _ (q2 ▸ (hp p q1).2.1)
  · obtain ⟨p, q1, q2⟩ := mn h2
    exact fmtG_coordinate _ (q2 ▸ (hp p q1).2.2)
  · obtain ⟨p, q1, q2⟩ := mx h3
    exact fmtG_coordinate _ (q2 ▸ (hp p q1).2.1)
  · obtain ⟨p, q1, q2⟩ := mx h4
    exact fmtG_coordinate _ (q2 ▸ (hp p q1).2.2)

/-- (example) -/
def bboxNode (id x y : Int) : OsmObj := .node ⟨{ Obj.new with id := id }, ⟨x, y⟩⟩
/-- (example) -/
def bboxMeta : Meta := Meta.new false

example : findBboxMain (protocol bboxMeta [bboxNode 1 133777777 525162222, bboxNode 2 (-5000) 10000000]) =
    "minlon=-0.0005 minlat=1 maxlon=13.3778 maxlat=52.5162".toList := by decide +kernel

/-- Disagreement with C88: as only six digits are printed, a node can be outside of the box: the node of this file is
at 13.3777777 degrees of longitude, the box begins (and ends) at 13.3778. -/
theorem find_bbox_rounded : findBboxMain (protocol bboxMeta [bboxNode 1 133777777 525162222]) =
    "minlon=13.3778 minlat=52.5162 maxlon=13.3778 maxlat=52.5162".toList := by decide +kernel

/-- Disagreement with C88: for a file without nodes a box is printed, too. -/
theorem find_bbox_no_nodes (m : Meta) (os : List OsmObj) (h : ∀ o ∈ os, o.type ≠ .node) :
    findBboxMain (protocol m os) = "minlon=214.748 minlat=214.748 maxlon=214.748 maxlat=214.748".toList := by
  have e := nodesBeforeEnd_protocol m [] os (by simp) h
  have e0 : nodePositions ([] ++ os) = [] := by
    rw [List.eq_nil_iff_forall_not_mem]
    intro p hp
    unfold nodePositions at hp
    obtain ⟨o, ho, e⟩ := List.mem_filterMap.1 hp
    cases o with
    | node n => exact h _ ho rfl
    | way w => cases e
    | relation r => cases e
  rw [e0, List.nil_append] at e
  unfold findBboxMain
  rw [findBbox_no_nodes _ e]
  decide +kernel

/-! ### osmium_time -/

theorem count_append (a b : List OsmObj) : countNodes (a ++ b) = countNodes a + countNodes b ∧
    countWays (a ++ b) = countWays a + countWays b ∧ countRelations (a ++ b) = countRelations a + countRelations b := by
  simp [countNodes, countWays, countRelations]

theorem timeRun_objects (c : TimeCounts) (os : List OsmObj) (rest : List Cb)
    (h : c.nodes + countNodes os < 2 ^ 64 ∧ c.ways + countWays os < 2 ^ 64 ∧
      c.relations + countRelations os < 2 ^ 64) :
    timeRun c (os.map Cb.obj ++ rest) =
      timeRun ⟨c.nodes + countNodes os, c.ways + countWays os, c.relations + countRelations os⟩ rest := by
  induction os generalizing c with
  | nil => rfl
  | cons o os ih =>
    obtain ⟨a1, a2, a3⟩ := count_append [o] os
    rw [show o :: os = [o] ++ os from rfl, a1, a2, a3] at h ⊢
    rw [List.map_append, List.map_singleton, List.append_assoc, List.singleton_append, timeRun]
    cases o with
    | node n =>
      have e : countNodes [OsmObj.node n] = 1 ∧ countWays [OsmObj.node n] = 0 ∧ countRelations [OsmObj.node n] = 0 :=
        ⟨rfl, rfl, rfl⟩
      rw [e.1, e.2.1, e.2.2] at h ⊢
      have : timeStep c (.obj (.node n)) = (⟨c.nodes + 1, c.ways, c.relations⟩, []) := by
        simp only [timeStep, inc64]
        rw [Nat.mod_eq_of_lt (by omega)]
      rw [this, List.nil_append, ih _ (by simp only; omega)]
      simp only [Nat.add_assoc, Nat.zero_add]
    | way n =>
      have e : countNodes [OsmObj.way n] = 0 ∧ countWays [OsmObj.way n] = 1 ∧ countRelations [OsmObj.way n] = 0 :=
        ⟨rfl, rfl, rfl⟩
      rw [e.1, e.2.1, e.2.2] at h ⊢
      have : timeStep c (.obj (.way n)) = (⟨c.nodes, c.ways + 1, c.relations⟩, []) := by
        simp only [timeStep, inc64]
        rw [Nat.mod_eq_of_lt (by omega)]
      rw [this, List.nil_append, ih _ (by simp only; omega)]
      simp only [Nat.add_assoc, Nat.zero_add]
    | relation n =>
      have e : countNodes [OsmObj.relation n] = 0 ∧ countWays [OsmObj.relation n] = 0 ∧
        countRelations [OsmObj.relation n] = 1 := ⟨rfl, rfl, rfl⟩
      rw [e.1, e.2.1, e.2.2] at h ⊢
      have : timeStep c (.obj (.relation n)) = (⟨c.nodes, c.ways, c.relations + 1⟩, []) := by
        simp only [timeStep, inc64]
        rw [Nat.mod_eq_of_lt (by omega)]
      rw [this, List.nil_append, ih _ (by simp only; omega)]
      simp only [Nat.add_assoc, Nat.zero_add]

theorem timeRun_runs (rs : List (List OsmObj)) (c : TimeCounts) (rest : List Cb)
    (h : c.nodes + countNodes rs.flatten < 2 ^ 64 ∧ c.ways + countWays rs.flatten < 2 ^ 64 ∧
      c.relations + countRelations rs.flatten < 2 ^ 64) :
    timeRun c (rs.flatMap runCalls ++ rest) =
      timeRun ⟨c.nodes + countNodes rs.flatten, c.ways + countWays rs.flatten,
        c.relations + countRelations rs.flatten⟩ rest := by
  induction rs generalizing c with
  | nil => rfl
  | cons r rs ih =>
    obtain ⟨a1, a2, a3⟩ := count_append r rs.flatten
    rw [List.flatten_cons, a1, a2, a3] at h ⊢
    rw [List.flatMap_cons]
    cases r with
    | nil =>
      simp only [runCalls, List.nil_append]
      rw [ih c (by simpa [countNodes, countWays, countRelations] using h)]
      simp [countNodes, countWays, countRelations]
    | cons o r =>
      simp only [runCalls, List.append_assoc, List.cons_append, List.nil_append]
      rw [timeRun]
      simp only [timeStep, List.nil_append]
      rw [timeRun_objects c (o :: r) _ ⟨by omega, by omega, by omega⟩, timeRun]
      simp only [timeStep, List.nil_append]
      rw [ih _ ⟨by simp only; omega, by simp only; omega, by simp only; omega⟩]
      simp only [Nat.add_assoc]

/-- C89: the program prints how many nodes, ways and relations there are in the file, in whatever order they are. -/
theorem time_counts (m : Meta) (os : List OsmObj) (h : os.length < 2 ^ 64) :
    timeMain (protocol m os) = [txt "nodes: " ++ natDec (countNodes os) ++ txt "  ways: " ++ natDec (countWays os) ++
      txt "  relations: " ++ natDec (countRelations os)] := by
  have l1 : countNodes os ≤ os.length := List.length_filter_le _ _
  have l2 : countWays os ≤ os.length := List.length_filter_le _ _
  have l3 : countRelations os ≤ os.length := List.length_filter_le _ _
  unfold timeMain protocol
  rw [List.cons_append, timeRun]
  simp only [timeStep, List.nil_append]
  rw [timeRun_runs _ _ _ (by rw [runs_flatten]; simp only; omega), runs_flatten]
  simp [timeRun, timeStep]

example : timeMain (protocol bboxMeta [bboxNode 1 0 0, .way Way.new, bboxNode 2 0 0]) =
    ["nodes: 2  ways: 1  relations: 0".toList] := by decide +kernel

end Osmium
